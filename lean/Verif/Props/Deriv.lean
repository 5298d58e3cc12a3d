import Verif.Proof.Deriv
/-!
# C49: numerical differentiation (functions/derivatives.h)
-/
set_option linter.unusedSectionVars false
set_option linter.unusedVariables false
namespace TooN.Deriv
open Spec
open scoped Classical
noncomputable section

variable {S : Type}

/-- **C49** (every functor, with or without state): between 1 and 400 calls are made, at the step sizes `1, 1.1⁻¹, 1.1⁻², …` in
this order; the search stops at the first row at which the documented criterion holds and not before (or after 400 rows); the
returned pair is the first polynomial extrapolation of smallest error estimate among all extrapolations of degree ≥ 1 that
were computed, with that error. -/
theorem c49_extrapolate (F : S → ℝ → Option ℝ × S) (s : S) :
    ∃ m, 1 ≤ m ∧ m ≤ 400 ∧ (extrapolate F s).2.2 = m ∧ (extrapolate F s).2.1 = traj F s m ∧
      (∀ k, k + 1 < m → ¬ Stop (vals F s) k) ∧ (m = 400 ∨ Stop (vals F s) (m - 1)) ∧
      IsBest (vals F s) (Rows m) (extrapolate F s).1 := extrapolate_spec F s

/-- **C49**: an extrapolation of degree `j` is exact at `0` on every polynomial of degree at most `j`. -/
theorem c49_polynomial_exact (y : Nat → Option ℝ) (i j : Nat) (hj : j ≤ i) (p : Polynomial ℝ) (hp : p.natDegree ≤ j)
    (hy : ∀ k, i - j ≤ k → k ≤ i → y k = some (p.eval (node k))) : E y i j = some (p.eval 0) := by
  unfold E
  rw [if_pos (fun k h1 h2 => by rw [hy k h1 h2]; simp)]
  congr 2
  symm
  apply Lagrange.eq_interpolate_of_eval_eq _ node_inj.injOn
  · rw [Nat.card_Icc]
    have h1 : i + 1 - (i - j) = j + 1 := by omega
    rw [h1]
    exact lt_of_le_of_lt (Polynomial.degree_le_natDegree) (by exact_mod_cast Nat.lt_succ_of_le hp)
  · intro k hk
    have := Finset.mem_Icc.mp hk
    simp [hy k this.1 this.2]

/-- extrapolating a value that does not depend on the step size -/
theorem E_const (y : Nat → Option ℝ) (A : ℝ) (hy : ∀ k, y k = some A) (i j : Nat) (hj : j ≤ i) : E y i j = some A := by
  have := c49_polynomial_exact y i j hj (Polynomial.C A) (by simp) (fun k _ _ => by simp [hy k])
  simpa using this

theorem err_const (y : Nat → Option ℝ) (A : ℝ) (hy : ∀ k, y k = some A) (i j : Nat) (h1 : 1 ≤ j) (hj : j ≤ i) :
    err y i j = some 0 := by
  unfold err
  rw [E_const y A hy i j hj, E_const y A hy i (j - 1) (by omega), E_const y A hy (i - 1) (j - 1) (by omega)]
  simp

theorem not_stop_one (y : Nat → Option ℝ) (A B : ℝ) (hy0 : y 0 = some A) (hy1 : y 1 = some B) : ¬ Stop y 1 := by
  rintro ⟨_, _, hI, _⟩
  apply hI
  have hE : E y 1 1 ≠ none := by
    rw [E_succ y 1 0 le_rfl, E_zero, E_zero, hy1, hy0]; simp [entry]
  have : err y 1 1 ≠ none := fun h => hE ((err_isSome y 1 1 le_rfl le_rfl).mp h)
  obtain ⟨e, he⟩ := Option.ne_none_iff_exists'.mp this
  exact ⟨1, e, le_rfl, le_rfl, he, fun i' j' e' g1 g2 g3 _ => by omega⟩

/-- constant difference quotients: all 400 step sizes are used and the constant is returned with error 0 -/
theorem extrapolate_const (F : S → ℝ → Option ℝ × S) (s : S) (A : ℝ) (h : ∀ k, vals F s k = some A) :
    (extrapolate F s).1 = (some A, some 0) ∧ (extrapolate F s).2.1 = traj F s 400 := by
  obtain ⟨m, h1, h2, h3, h4, h5, h6, h7⟩ := extrapolate_spec F s
  have hm : m = 400 := by
    rcases h6 with h6 | ⟨g1, g2, g3, g4⟩
    · exact h6
    · exfalso
      rw [E_const _ A h _ _ le_rfl, E_const _ A h _ _ le_rfl] at g4
      rcases g4 with g4 | ⟨a, b, ha, hb, i', j', e, q1, q2, q3, q4, q5⟩
      · exact absurd g4 (by simp)
      · rw [err_const _ A h _ _ q1 q2] at q4
        have e0 : e = 0 := by simpa using q4.symm
        have : a = b := by
          have h1 : A = a := by simpa using ha
          have h2 : A = b := by simpa using hb
          linarith
        rw [this, e0] at q5
        simp at q5
  subst hm
  refine ⟨?_, h4⟩
  rcases h7 with ⟨hn, _⟩ | ⟨i, j, p, e, hd, hE, he, hres, _⟩
  · have := hn 1 1 ⟨le_rfl, le_rfl, by norm_num⟩
    rw [err_const _ A h _ _ le_rfl le_rfl] at this
    exact absurd this (by simp)
  · rw [hres]
    rw [E_const _ A h _ _ hd.2.1] at hE
    rw [err_const _ A h _ _ hd.1 hd.2.1] at he
    rw [← hE, ← he]

theorem E_even (y : Nat → Option ℝ) (A B : ℝ) (hy : ∀ k, y k = some (A + B * node k ^ 2)) (i j : Nat) (h2 : 2 ≤ j) (hj : j ≤ i) :
    E y i j = some A := by
  have := c49_polynomial_exact y i j hj (Polynomial.C A + Polynomial.C B * Polynomial.X ^ 2)
    (by
      refine le_trans (Polynomial.natDegree_add_le _ _) ?_
      refine max_le (by simp) (le_trans (Polynomial.natDegree_C_mul_X_pow_le B 2) h2))
    (fun k _ _ => by simp [hy k])
  simpa using this

/-- **C49**: if the difference quotient is `A + B h²` (as it is for a polynomial of degree at most 4) the limit `A` is returned, with
error estimate 0. -/
theorem c49_even_quadratic_exact (F : S → ℝ → Option ℝ × S) (s : S) (A B : ℝ)
    (h : ∀ k, vals F s k = some (A + B * node k ^ 2)) : (extrapolate F s).1 = (some A, some 0) := by
  by_cases hB : B = 0
  · subst hB
    exact (extrapolate_const F s A (fun k => by rw [h k]; simp)).1
  obtain ⟨m, h1, h2, h3, h4, h5, h6, h7⟩ := extrapolate_spec F s
  generalize vals F s = y at *
  -- values of the first rows
  have n0 : node 0 = 1 := by simp [node]
  have n1 : node 1 = 10 / 11 := by simp [node]
  have n2 : node 2 = 100 / 121 := by norm_num [node]
  have E11 : E y 1 1 = some (A - B * (10 / 11)) := by
    rw [E_succ y 1 0 le_rfl, E_zero, E_zero, h 1, h (1 - 1)]
    simp only [entry, c, n0, n1, Nat.sub_self]
    congr 1; norm_num; ring
  have E21 : E y 2 1 = some (A - B * (1000 / 1331)) := by
    rw [E_succ y 2 0 (by norm_num), E_zero, E_zero, h 2, h (2 - 1)]
    simp only [entry, c, show 2 - 1 = 1 from rfl, n1, n2]
    congr 1; norm_num; ring
  have e11 : err y 1 1 = some (|B| * (21 / 11)) := by
    unfold err
    simp only [E11, Nat.sub_self, E_zero, h, n0, n1]
    congr 1
    have h1 : A - B * (10 / 11) - (A + B * (10 / 11) ^ 2) = B * -(210 / 121) := by ring
    have h2 : A - B * (10 / 11) - (A + B * 1 ^ 2) = B * -(21 / 11) := by ring
    rw [h1, h2, abs_mul, abs_mul]
    norm_num
    linarith [abs_nonneg B]
  have e21 : err y 2 1 = some (|B| * (2100 / 1331)) := by
    unfold err
    simp only [E21, Nat.sub_self, E_zero, h, show 2 - 1 = 1 from rfl, n2, n1]
    congr 1
    have h1 : A - B * (1000 / 1331) - (A + B * (100 / 121) ^ 2) = B * -(21000 / 14641) := by ring
    have h2 : A - B * (1000 / 1331) - (A + B * (10 / 11) ^ 2) = B * -(2100 / 1331) := by ring
    rw [h1, h2, abs_mul, abs_mul]
    norm_num
    linarith [abs_nonneg B]
  have hBp : 0 < |B| := abs_pos.mpr hB
  have s0 : ¬ Stop y 0 := fun hs => absurd hs.1 (by omega)
  have s1 : ¬ Stop y 1 := not_stop_one y _ _ (h 0) (h 1)
  have s2 : ¬ Stop y 2 := by
    rintro ⟨_, _, hI, _⟩
    apply hI
    refine ⟨1, _, le_rfl, by norm_num, e21, ?_⟩
    intro i' j' e' g1 g2 g3 g4
    have : i' = 1 ∧ j' = 1 := by omega
    rw [this.1, this.2, e11] at g4
    have : e' = |B| * (21 / 11) := by simpa using g4.symm
    rw [this]
    have : (2100 / 1331 : ℝ) < 21 / 11 := by norm_num
    nlinarith
  have hm : 4 ≤ m := by
    rcases h6 with h6 | h6
    · omega
    · by_contra hlt
      have : m - 1 = 0 ∨ m - 1 = 1 ∨ m - 1 = 2 := by omega
      rcases this with e | e | e <;> rw [e] at h6 <;> [exact s0 h6; exact s1 h6; exact s2 h6]
  have e33 : err y 3 3 = some 0 := by
    unfold err
    rw [E_even y A B h 3 3 (by norm_num) le_rfl, E_even y A B h 3 (3 - 1) (by norm_num) (by norm_num),
      E_even y A B h (3 - 1) (3 - 1) (by norm_num) le_rfl]
    simp
  rcases h7 with ⟨hn, _⟩ | ⟨i, j, p, e, hd, hE, he, hres, hmin⟩
  · have := hn 3 3 ⟨by norm_num, le_rfl, by omega⟩
    rw [e33] at this; exact absurd this (by simp)
  · have hle := (hmin 3 3 0 ⟨by norm_num, le_rfl, by omega⟩ e33).1
    obtain ⟨hd1, hd2, hd3⟩ := hd
    have hnonneg : 0 ≤ e := by
      rw [err_eq] at he
      cases a : E y i j <;> cases b : E y i (j - 1) <;> cases cc : E y (i - 1) (j - 1) <;> rw [a, b, cc] at he <;>
        simp [maxO, absDiff] at he
      rw [← he]; exact le_max_of_le_left (abs_nonneg _)
    have e0 : e = 0 := le_antisymm hle hnonneg
    rw [hres, e0]
    by_cases hj : 2 ≤ j
    · rw [E_even y A B h i j hj hd2] at hE
      rw [← hE]
    · exfalso
      have hj1 : j = 1 := by omega
      subst hj1
      have hEE := E_succ y i 0 (by omega)
      simp only [zero_add] at hEE
      have hi : i = (i - 1) + 1 := by omega
      unfold err at he
      rw [hE, Nat.sub_self, E_zero, E_zero, h, h] at he
      have he : max |p - (A + B * node i ^ 2)| |p - (A + B * node (i - 1) ^ 2)| = e := by simpa using he
      rw [e0] at he
      have a1 : |p - (A + B * node i ^ 2)| ≤ 0 := he ▸ le_max_left _ _
      have a2 : |p - (A + B * node (i - 1) ^ 2)| ≤ 0 := he ▸ le_max_right _ _
      have b1 := abs_nonpos_iff.mp a1
      have b2 := abs_nonpos_iff.mp a2
      have : B * (node i ^ 2 - node (i - 1) ^ 2) = 0 := by linarith
      have : node i ^ 2 - node (i - 1) ^ 2 = 0 := by
        rcases mul_eq_zero.mp this with q | q
        · exact absurd q hB
        · exact q
      have : node i = node (i - 1) := by
        have p1 := node_pos i
        have p2 := node_pos (i - 1)
        nlinarith
      have := node_inj this
      omega

/-! ## Gradient -/

theorem step_pos (v : Vec ℝ) (i k : Nat) : 0 < step v i (node k) := by
  unfold step
  exact mul_pos (node_pos k) (lt_max_of_lt_right (by norm_num))

/-- the central difference quotient along axis `i` -/
def centralDiff (f : Vec ℝ → Option ℝ) (v : Vec ℝ) (i : Nat) (h : ℝ) : Option ℝ :=
  match f (Vec.set v i (v i - h)), f (Vec.set v i (v i + h)) with
  | some f1, some f2 => some ((f2 - f1) / (2 * h))
  | _, _ => none

theorem set_set (v : Vec ℝ) (i : Nat) (a b : ℝ) : Vec.set (Vec.set v i a) i b = Vec.set v i b := by
  funext k; simp only [Vec.set]; split_ifs <;> rfl
theorem set_self (v : Vec ℝ) (i : Nat) : Vec.set v i (v i) = v := by
  funext k; simp only [Vec.set]; split_ifs with h <;> [rw [h]; rfl]

theorem gradCall_eq (f : Vec ℝ → Option ℝ) (v : Vec ℝ) (i : Nat) (hh : ℝ) :
    gradCall f v i v hh = (centralDiff f v i (step v i hh), v) := by
  unfold gradCall centralDiff
  simp only [set_set, set_self]
  cases f (Vec.set v i (v i - step v i hh)) <;> cases f (Vec.set v i (v i + step v i hh)) <;> rfl

theorem gradTraj (f : Vec ℝ → Option ℝ) (v : Vec ℝ) (i : Nat) (k : Nat) : traj (gradCall f v i) v k = v := by
  induction k with
  | zero => rfl
  | succ k ih => rw [traj, ih, gradCall_eq]

theorem gradVals (f : Vec ℝ → Option ℝ) (v : Vec ℝ) (i : Nat) :
    vals (gradCall f v i) v = fun k => centralDiff f v i (step v i (node k)) := by
  funext k; rw [vals, gradTraj, gradCall_eq]

theorem gradient_inv (n : Nat) (f : Vec ℝ → Option ℝ) (v : Vec ℝ) (u w : Vec (Option ℝ)) :
    (∀ i, (gradient n f v u w).1 i = if i < n then (extrapolate (gradCall f v i) v).1.1 else u i) ∧
    (∀ i, (gradient n f v u w).2.1 i = if i < n then (extrapolate (gradCall f v i) v).1.2 else w i) ∧
    (gradient n f v u w).2.2.1 = v ∧ (gradient n f v u w).2.2.2 ≤ 400 * n := by
  unfold gradient
  refine forN_inv (fun k (st : Vec (Option ℝ) × Vec (Option ℝ) × Vec ℝ × Nat) => (∀ i, st.1 i = if i < k then (extrapolate (gradCall f v i) v).1.1 else u i) ∧
    (∀ i, st.2.1 i = if i < k then (extrapolate (gradCall f v i) v).1.2 else w i) ∧ st.2.2.1 = v ∧ st.2.2.2 ≤ 400 * k)
    n _ _ ⟨fun i => by simp, fun i => by simp, rfl, by simp⟩ ?_
  rintro k ⟨a, b, x, cnt⟩ hk ⟨h1, h2, h3, h4⟩
  simp only at h1 h2 h3 h4
  subst h3
  obtain ⟨m, g1, g2, g3, g4, _⟩ := extrapolate_spec (gradCall f x k) x
  refine ⟨?_, ?_, ?_, ?_⟩
  · intro i
    simp only [Vec.set]
    by_cases e : i = k
    · subst e; simp
    · rw [if_neg e, h1 i]
      by_cases hh : i < k
      · rw [if_pos hh, if_pos (by omega)]
      · rw [if_neg hh, if_neg (by omega)]
  · intro i
    simp only [Vec.set]
    by_cases e : i = k
    · subst e; simp
    · rw [if_neg e, h2 i]
      by_cases hh : i < k
      · rw [if_pos hh, if_pos (by omega)]
      · rw [if_neg hh, if_neg (by omega)]
  · show (extrapolate (gradCall f x k) x).2.1 = x
    rw [g4, gradTraj]
  · show cnt + (extrapolate (gradCall f x k) x).2.2 ≤ 400 * (k + 1)
    rw [g3]; omega

/-- **C49** (gradient, every function, point and dimension): component `i` and its error are the best extrapolation of the
central difference quotient along axis `i` *at the given point* (no component is affected by the perturbations made for
another); at most 400 quotients, hence 800 evaluations, are computed per component; the working copy of the point ends up
unperturbed. -/
theorem c49_gradient (n : Nat) (f : Vec ℝ → Option ℝ) (v : Vec ℝ) (u w : Vec (Option ℝ)) :
    (∀ i < n, Ridders (fun k => centralDiff f v i (node k * max (|v i| * 1e-3) 1e-3))
        ((gradient n f v u w).1 i, (gradient n f v u w).2.1 i)) ∧
    (∀ i, n ≤ i → (gradient n f v u w).1 i = u i ∧ (gradient n f v u w).2.1 i = w i) ∧
    (gradient n f v u w).2.2.1 = v ∧ (gradient n f v u w).2.2.2 ≤ 400 * n := by
  obtain ⟨h1, h2, h3, h4⟩ := gradient_inv n f v u w
  refine ⟨?_, ?_, h3, h4⟩
  · intro i hi
    obtain ⟨m, g1, g2, _, _, g5, g6, g7⟩ := extrapolate_spec (gradCall f v i) v
    rw [gradVals] at g5 g6 g7
    refine ⟨m, g1, g2, g5, g6, ?_⟩
    rw [h1 i, h2 i, if_pos hi, if_pos hi]
    exact g7
  · intro i hi
    rw [h1 i, h2 i, if_neg (by omega), if_neg (by omega)]
    exact ⟨rfl, rfl⟩

/-- **C49**: the gradient is exact, with error estimate 0, along every axis on which the function is a polynomial of degree at most 4. -/
theorem c49_gradient_quartic (n : Nat) (f : Vec ℝ → Option ℝ) (v : Vec ℝ) (u w : Vec (Option ℝ)) (i : Nat) (hi : i < n)
    (a0 a1 a2 a3 a4 : ℝ)
    (hf : ∀ s, f (Vec.set v i (v i + s)) = some (a0 + a1 * s + a2 * s ^ 2 + a3 * s ^ 3 + a4 * s ^ 4)) :
    (gradient n f v u w).1 i = some a1 ∧ (gradient n f v u w).2.1 i = some 0 := by
  obtain ⟨h1, h2, _, _⟩ := gradient_inv n f v u w
  rw [h1 i, h2 i, if_pos hi, if_pos hi]
  have := c49_even_quadratic_exact (gradCall f v i) v a1 (a3 * (max (|v i| * 1e-3) 1e-3) ^ 2) (fun k => by
    rw [gradVals]
    have hp := step_pos v i k
    have hn : node k * max (|v i| * 1e-3) 1e-3 = step v i (node k) := rfl
    have hm : f (Vec.set v i (v i - step v i (node k))) = some (a0 + a1 * (-step v i (node k)) +
        a2 * (-step v i (node k)) ^ 2 + a3 * (-step v i (node k)) ^ 3 + a4 * (-step v i (node k)) ^ 4) := by
      rw [sub_eq_add_neg]; exact hf _
    beta_reduce
    unfold centralDiff
    rw [hm, hf]
    simp only [Option.some.injEq]
    have : a1 + a3 * max (|v i| * 1e-3) 1e-3 ^ 2 * node k ^ 2 = a1 + a3 * (node k * max (|v i| * 1e-3) 1e-3) ^ 2 := by ring
    rw [this, hn]
    generalize step v i (node k) = h at *
    have := hp.ne'
    field_simp
    ring)
  rw [this]
  exact ⟨rfl, rfl⟩

/-- a non-trivial function meeting the hypotheses: `x₀⁴ + 3 x₀ x₁` at `(2, 5)` has gradient component `47` along axis 0 -/
example (u w : Vec (Option ℝ)) :
    (gradient 2 (fun x => some (x 0 ^ 4 + 3 * x 0 * x 1)) (fun i => if i = 0 then 2 else 5) u w).1 0 = some 47 :=
  (c49_gradient_quartic 2 _ _ u w 0 (by norm_num) 46 47 24 8 1 (fun s => by simp [Vec.set]; ring)).1

/-- **C49** (limit of the claim): the reported error is not a bound.  The polynomial below has derivative `100/121` at 0, but its
central difference quotients at the first two step sizes are both 0, and the result is `0` with reported error `0`. -/
theorem c49_error_estimate_not_a_bound_wrong (u w : Vec (Option ℝ)) :
    let f : Vec ℝ → Option ℝ := fun x => some (10 ^ 12 * x 0 ^ 5 - 10 ^ 6 * (221 / 121) * x 0 ^ 3 + 100 / 121 * x 0)
    (gradient 1 f (fun _ => 0) u w).1 0 = some 0 ∧ (gradient 1 f (fun _ => 0) u w).2.1 0 = some 0 := by
  intro f
  obtain ⟨h1, h2, _, _⟩ := gradient_inv 1 f (fun _ => 0) u w
  rw [h1 0, h2 0, if_pos (by norm_num), if_pos (by norm_num)]
  obtain ⟨m, g1, g2, _, _, g5, g6, g7⟩ := extrapolate_spec (gradCall f (fun _ => 0) 0) (fun _ => 0)
  have hv : ∀ k, vals (gradCall f (fun _ => 0) 0) (fun _ => 0) k = some ((node k ^ 2 - 1) * (node k ^ 2 - (10 / 11) ^ 2)) := by
    intro k
    rw [gradVals]
    have hs : step (fun _ => 0) 0 (node k) = node k * 1e-3 := by
      unfold step; norm_num
    have hp := node_pos k
    simp only [centralDiff, f, Vec.set, if_true, hs]
    congr 1
    generalize node k = x at *
    have : x ≠ 0 := hp.ne'
    field_simp
    ring
  generalize vals (gradCall f (fun _ => 0) 0) (fun _ => 0) = y at *
  have y0 : y 0 = some 0 := by rw [hv]; simp [node]
  have y1 : y 1 = some 0 := by rw [hv]; simp [node]
  have E11 : E y 1 1 = some 0 := by
    rw [E_succ y 1 0 le_rfl, E_zero, E_zero, y1, y0]; simp [entry]
  have e11 : err y 1 1 = some 0 := by
    unfold err; rw [E11, Nat.sub_self, E_zero, E_zero, y1, y0]; simp
  have hm : 2 ≤ m := by
    rcases g6 with g | g
    · omega
    · by_contra hlt
      have : m - 1 = 0 := by omega
      rw [this] at g; exact absurd g.1 (by omega)
  rcases g7 with ⟨hn, _⟩ | ⟨i, j, p, e, hd, hE, he, hres, hmin⟩
  · have := hn 1 1 ⟨le_rfl, le_rfl, by omega⟩
    rw [e11] at this; exact absurd this (by simp)
  · have hle := hmin 1 1 0 ⟨le_rfl, le_rfl, by omega⟩ e11
    have hnonneg : 0 ≤ e := by
      rw [err_eq] at he
      cases a : E y i j <;> cases b : E y i (j - 1) <;> cases cc : E y (i - 1) (j - 1) <;> rw [a, b, cc] at he <;>
        simp [maxO, absDiff] at he
      rw [← he]; exact le_max_of_le_left (abs_nonneg _)
    have e0 : e = 0 := le_antisymm hle.1 hnonneg
    have hij : i = 1 ∧ j = 1 := by
      by_contra hne
      obtain ⟨d1, d2, d3⟩ := hd
      have := hle.2 (by omega)
      linarith
    rw [hij.1, hij.2, E11] at hE
    rw [hres, ← hE, e0]
    exact ⟨rfl, rfl⟩

/-! ## Hessian -/

/-- the second difference quotient along axis `i` -/
def secondDiff (f : Vec ℝ → Option ℝ) (v : Vec ℝ) (i : Nat) (h : ℝ) : Option ℝ :=
  match f (Vec.set v i (v i - h)), f (Vec.set v i (v i + h)), f v with
  | some f1, some f2, some ce => some ((f2 - 2 * ce + f1) / (h * h))
  | _, _, _ => none

/-- the point whose coordinates `i` and `j` are `v i + s` and `v j + t`, the others those of `q` -/
def planePt (v q : Vec ℝ) (i j : Nat) (s t : ℝ) : Vec ℝ := Vec.set (Vec.set q i (v i + s)) j (v j + t)

/-- the cross difference quotient in the plane of axes `i` and `j`, the other coordinates being those of `q` -/
def crossDiff (f : Vec ℝ → Option ℝ) (v q : Vec ℝ) (i j : Nat) (h : ℝ) : Option ℝ :=
  match f (planePt v q i j h h), f (planePt v q i j (-h) h), f (planePt v q i j h (-h)), f (planePt v q i j (-h) (-h)) with
  | some a, some b, some c, some d => some ((a - b - c + d) / (4 * h * h))
  | _, _, _, _ => none

theorem secondCall_eq (f : Vec ℝ → Option ℝ) (v : Vec ℝ) (i : Nat) (hh : ℝ) :
    secondCall f v (f v) i v hh = (secondDiff f v i (step v i hh), v) := by
  unfold secondCall secondDiff
  simp only [set_set, set_self]
  cases f (Vec.set v i (v i - step v i hh)) <;> cases f (Vec.set v i (v i + step v i hh)) <;> cases f v <;> rfl

theorem secondTraj (f : Vec ℝ → Option ℝ) (v : Vec ℝ) (i : Nat) (k : Nat) : traj (secondCall f v (f v) i) v k = v := by
  induction k with
  | zero => rfl
  | succ k ih => rw [traj, ih, secondCall_eq]

theorem secondVals (f : Vec ℝ → Option ℝ) (v : Vec ℝ) (i : Nat) :
    vals (secondCall f v (f v) i) v = fun k => secondDiff f v i (step v i (node k)) := by
  funext k; rw [vals, secondTraj, secondCall_eq]

theorem planePt_congr (v q q' : Vec ℝ) (i j : Nat) (s t : ℝ) (h : ∀ k, k ≠ i → k ≠ j → q k = q' k) :
    planePt v q i j s t = planePt v q' i j s t := by
  funext k; simp only [planePt, Vec.set]
  by_cases h1 : k = j
  · simp [h1]
  · by_cases h2 : k = i
    · simp [h2]
    · simp [h1, h2, h k h2 h1]

theorem crossDiff_congr (f : Vec ℝ → Option ℝ) (v q q' : Vec ℝ) (i j : Nat) (t : ℝ) (h : ∀ k, k ≠ i → k ≠ j → q k = q' k) :
    crossDiff f v q i j t = crossDiff f v q' i j t := by
  unfold crossDiff
  simp only [planePt_congr v q q' i j _ _ h]

theorem crossCall_eq (f : Vec ℝ → Option ℝ) (v x : Vec ℝ) (i j : Nat) (hij : i ≠ j) (hh : ℝ) :
    crossCall f v i j x hh = (crossDiff f v x i j (step v i hh), planePt v x i j (-step v i hh) (-step v i hh)) := by
  have key : ∀ (y : Vec ℝ) (s t : ℝ), (∀ k, k ≠ i → k ≠ j → y k = x k) →
      Vec.set (Vec.set y i (v i + s)) j (v j + t) = planePt v x i j s t := fun y s t h => planePt_congr v y x i j s t h
  have off : ∀ (s t : ℝ) (k : Nat), k ≠ i → k ≠ j → planePt v x i j s t k = x k := by
    intro s t k h1 h2; simp [planePt, Vec.set, h1, h2]
  unfold crossCall
  simp only [sub_eq_add_neg]
  rw [key x _ _ (fun _ _ _ => rfl), key _ _ _ (off _ _), key _ _ _ (off _ _), key _ _ _ (off _ _)]
  unfold crossDiff
  cases f (planePt v x i j (step v i hh) (step v i hh)) <;> cases f (planePt v x i j (-step v i hh) (step v i hh)) <;>
    cases f (planePt v x i j (step v i hh) (-step v i hh)) <;> cases f (planePt v x i j (-step v i hh) (-step v i hh)) <;>
    simp [sub_eq_add_neg]

theorem crossTraj (f : Vec ℝ → Option ℝ) (v x : Vec ℝ) (i j : Nat) (hij : i ≠ j) (k : Nat) :
    traj (crossCall f v i j) x (k + 1) = planePt v x i j (-step v i (node k)) (-step v i (node k)) := by
  induction k with
  | zero => rw [traj, traj, crossCall_eq _ _ _ _ _ hij]
  | succ k ih =>
    rw [traj, ih, crossCall_eq _ _ _ _ _ hij]
    apply planePt_congr
    intro k h1 h2; simp [planePt, Vec.set, h1, h2]

theorem crossTraj_off (f : Vec ℝ → Option ℝ) (v x : Vec ℝ) (i j : Nat) (hij : i ≠ j) (m k : Nat) (h1 : k ≠ i) (h2 : k ≠ j) :
    traj (crossCall f v i j) x m k = x k := by
  cases m with
  | zero => rfl
  | succ m => rw [crossTraj f v x i j hij]; simp [planePt, Vec.set, h1, h2]

theorem crossVals (f : Vec ℝ → Option ℝ) (v x : Vec ℝ) (i j : Nat) (hij : i ≠ j) :
    vals (crossCall f v i j) x = fun k => crossDiff f v x i j (step v i (node k)) := by
  funext k; rw [vals, crossCall_eq _ _ _ _ _ hij]
  exact crossDiff_congr _ _ _ _ _ _ _ (fun k' h1 h2 => crossTraj_off f v x i j hij k k' h1 h2)

theorem node_le_one (k : Nat) : node k ≤ 1 := by
  unfold node; exact pow_le_one₀ (by norm_num) (by norm_num)

/-- what the loop over pairs establishes about the pair `r < cc` -/
def PairGood (f : Vec ℝ → Option ℝ) (v : Vec ℝ) (B : ℝ) (H E : Mat (Option ℝ)) (r cc : Nat) : Prop :=
  H cc r = H r cc ∧ E cc r = E r cc ∧
  ∃ q : Vec ℝ, (∀ k, |q k - v k| ≤ B) ∧ (r = 0 → ∀ k, cc < k → q k = v k) ∧
    (extrapolate (crossCall f v r cc) q).1 = (H r cc, E r cc)

theorem pairStep_good (f : Vec ℝ → Option ℝ) (v : Vec ℝ) (B : ℝ) (r cc : Nat) (hrc : r < cc)
    (hB : 1 * max (|v r| * 1e-3) 1e-3 ≤ B)
    (st : Mat (Option ℝ) × Mat (Option ℝ) × Vec ℝ) (h1 : ∀ k, |st.2.2 k - v k| ≤ B) (h2 : r = 0 → ∀ k, cc ≤ k → st.2.2 k = v k) :
    PairGood f v B (pairStep f v r cc st).1 (pairStep f v r cc st).2.1 r cc ∧
    (∀ a b, ¬ (a = r ∧ b = cc) → ¬ (a = cc ∧ b = r) → (pairStep f v r cc st).1 a b = st.1 a b ∧
      (pairStep f v r cc st).2.1 a b = st.2.1 a b) ∧
    (∀ k, |(pairStep f v r cc st).2.2 k - v k| ≤ B) ∧
    (r = 0 → ∀ k, cc < k → (pairStep f v r cc st).2.2 k = v k) := by
  have hne : r ≠ cc := by omega
  obtain ⟨m, g1, g2, g3, g4, _⟩ := extrapolate_spec (crossCall f v r cc) st.2.2
  refine ⟨⟨?_, ?_, st.2.2, h1, fun h k hk => h2 h k (by omega), ?_⟩, ?_, ?_, ?_⟩
  · simp [pairStep, Mat.set]
  · simp [pairStep, Mat.set]
  · simp [pairStep, Mat.set]
  · intro a b n1 n2
    simp [pairStep, Mat.set, n1, n2]
  · intro k
    show |(extrapolate (crossCall f v r cc) st.2.2).2.1 k - v k| ≤ B
    rw [g4]
    obtain ⟨m, rfl⟩ : ∃ m', m = m' + 1 := ⟨m - 1, by omega⟩
    rw [crossTraj f v _ r cc hne]
    have hs : |-step v r (node m)| ≤ B := by
      rw [abs_neg, abs_of_pos (step_pos v r m)]
      refine le_trans ?_ hB
      unfold step
      exact mul_le_mul_of_nonneg_right (node_le_one m) (le_max_of_le_right (by norm_num))
    by_cases k1 : k = cc
    · subst k1; simpa [planePt, Vec.set] using hs
    · by_cases k2 : k = r
      · subst k2; simpa [planePt, Vec.set, k1] using hs
      · simpa [planePt, Vec.set, k1, k2] using h1 k
  · intro hr k hk
    show (extrapolate (crossCall f v r cc) st.2.2).2.1 k = v k
    rw [g4, crossTraj_off f v _ r cc hne m k (by omega) (by omega)]
    exact h2 hr k (by omega)

theorem PairGood.congr {f : Vec ℝ → Option ℝ} {v : Vec ℝ} {B : ℝ} {H E H' E' : Mat (Option ℝ)} {r cc : Nat}
    (h : PairGood f v B H E r cc) (h1 : H' r cc = H r cc) (h2 : H' cc r = H cc r) (h3 : E' r cc = E r cc) (h4 : E' cc r = E cc r) :
    PairGood f v B H' E' r cc := by
  obtain ⟨a, b, q, c1, c2, c3⟩ := h
  exact ⟨by rw [h1, h2, a], by rw [h3, h4, b], q, c1, c2, by rw [h1, h3, c3]⟩

theorem crossLoop_inv (n : Nat) (f : Vec ℝ → Option ℝ) (v : Vec ℝ) (U W : Mat (Option ℝ)) (B : ℝ) (hB0 : 0 ≤ B)
    (hB : ∀ a < n, 1 * max (|v a| * 1e-3) 1e-3 ≤ B) (r cc : Nat) (hrc : r < cc) (hcn : cc < n) :
    PairGood f v B (crossLoop n f v U W).1 (crossLoop n f v U W).2.1 r cc := by
  unfold crossLoop
  have main := forN_inv (fun k (st : Mat (Option ℝ) × Mat (Option ℝ) × Vec ℝ) =>
    (∀ r cc, r < cc → cc < n → r < k → PairGood f v B st.1 st.2.1 r cc) ∧ (∀ i, |st.2.2 i - v i| ≤ B) ∧
    (k = 0 → st.2.2 = v)) n (fun r st => forRange (r + 1) n (fun cc st => pairStep f v r cc st) st) (U, W, v)
    ⟨fun _ _ _ _ h => by omega, fun i => by simpa using hB0, fun _ => rfl⟩ ?_
  · exact main.1 r cc hrc hcn (by omega)
  rintro k st hk ⟨h1, h2, h3⟩
  have inner := forRange_inv (fun c (s : Mat (Option ℝ) × Mat (Option ℝ) × Vec ℝ) =>
    (∀ r cc, r < cc → cc < n → (r < k ∨ r = k ∧ cc < c) → PairGood f v B s.1 s.2.1 r cc) ∧ (∀ i, |s.2.2 i - v i| ≤ B) ∧
    (k = 0 → ∀ i, c ≤ i → s.2.2 i = v i)) (k + 1) n (by omega) (fun cc st => pairStep f v k cc st) st
    ⟨fun r cc a b e => h1 r cc a b (by omega), h2, fun hk i _ => by rw [h3 hk]⟩ ?_
  · exact ⟨fun r cc a b e => inner.1 r cc a b (by omega), inner.2.1, fun h => by omega⟩
  rintro c s hc1 hc2 ⟨g1, g2, g3⟩
  obtain ⟨p1, p2, p3, p4⟩ := pairStep_good f v B k c (by omega) (hB k hk) s g2 g3
  refine ⟨?_, p3, fun hk i hi => p4 hk i (by omega)⟩
  intro r cc a b e
  by_cases hh : r = k ∧ cc = c
  · rw [hh.1, hh.2]; exact p1
  · refine (g1 r cc a b (by omega)).congr ?_ ?_ ?_ ?_
    · exact (p2 r cc (by omega) (by omega)).1
    · exact (p2 cc r (by omega) (by omega)).1
    · exact (p2 r cc (by omega) (by omega)).2
    · exact (p2 cc r (by omega) (by omega)).2

theorem diagLoop_inv (n : Nat) (f : Vec ℝ → Option ℝ) (v : Vec ℝ) (H E : Mat (Option ℝ)) :
    (∀ a b, (diagLoop n f v H E).1 a b =
      if a = b ∧ a < n then (extrapolate (secondCall f v (f v) a) v).1.1 else H a b) ∧
    (∀ a b, (diagLoop n f v H E).2.1 a b =
      if a = b ∧ a < n then (extrapolate (secondCall f v (f v) a) v).1.2 else E a b) := by
  unfold diagLoop
  have main := forN_inv (fun k (st : Mat (Option ℝ) × Mat (Option ℝ) × Vec ℝ) =>
    (∀ a b, st.1 a b = if a = b ∧ a < k then (extrapolate (secondCall f v (f v) a) v).1.1 else H a b) ∧
    (∀ a b, st.2.1 a b = if a = b ∧ a < k then (extrapolate (secondCall f v (f v) a) v).1.2 else E a b) ∧ st.2.2 = v) n
    (fun i st =>
      let e := extrapolate (secondCall f v (f v) i) st.2.2
      (Mat.set st.1 i i e.1.1, Mat.set st.2.1 i i e.1.2, e.2.1)) (H, E, v)
    ⟨fun a b => by simp, fun a b => by simp, rfl⟩ ?_
  · exact ⟨main.1, main.2.1⟩
  rintro k ⟨a, b, x⟩ hk ⟨h1, h2, h3⟩
  simp only at h1 h2 h3
  subst h3
  obtain ⟨m, g1, g2, g3, g4, _⟩ := extrapolate_spec (secondCall f x (f x) k) x
  refine ⟨?_, ?_, ?_⟩
  · intro i j
    simp only [Mat.set]
    by_cases e : i = k ∧ j = k
    · obtain ⟨rfl, rfl⟩ := e; simp
    · rw [if_neg e, h1 i j]
      by_cases hh : i = j ∧ i < k
      · rw [if_pos hh, if_pos ⟨hh.1, by omega⟩]
      · rw [if_neg hh, if_neg (by omega)]
  · intro i j
    simp only [Mat.set]
    by_cases e : i = k ∧ j = k
    · obtain ⟨rfl, rfl⟩ := e; simp
    · rw [if_neg e, h2 i j]
      by_cases hh : i = j ∧ i < k
      · rw [if_pos hh, if_pos ⟨hh.1, by omega⟩]
      · rw [if_neg hh, if_neg (by omega)]
  · show (extrapolate (secondCall f x (f x) k) x).2.1 = x
    rw [g4, secondTraj]

theorem hessian_offdiag (n : Nat) (f : Vec ℝ → Option ℝ) (v : Vec ℝ) (U W : Mat (Option ℝ)) (a b : Nat) (h : a ≠ b) :
    (hessian n f v U W).1 a b = (crossLoop n f v U W).1 a b ∧ (hessian n f v U W).2 a b = (crossLoop n f v U W).2.1 a b := by
  unfold hessian
  simp only
  rw [(diagLoop_inv n f v _ _).1, (diagLoop_inv n f v _ _).2, if_neg (fun g => h g.1), if_neg (fun g => h g.1)]
  exact ⟨rfl, rfl⟩

/-- **C49**: the Hessian and the matrix of errors are exactly symmetric, for every function, point and dimension. -/
theorem c49_hessian_symmetric (n : Nat) (f : Vec ℝ → Option ℝ) (v : Vec ℝ) (U W : Mat (Option ℝ)) (a b : Nat) (ha : a < n)
    (hb : b < n) : (hessian n f v U W).1 a b = (hessian n f v U W).1 b a ∧
      (hessian n f v U W).2 a b = (hessian n f v U W).2 b a := by
  obtain ⟨B, hB0, hB⟩ : ∃ B : ℝ, 0 ≤ B ∧ ∀ a < n, 1 * max (|v a| * 1e-3) 1e-3 ≤ B :=
    ⟨∑ i ∈ Finset.range n, 1 * max (|v i| * 1e-3) 1e-3,
      Finset.sum_nonneg (fun i _ => by have : (0:ℝ) ≤ max (|v i| * 1e-3) 1e-3 := le_max_of_le_right (by norm_num)
                                       linarith),
      fun a ha => Finset.single_le_sum (f := fun i => 1 * max (|v i| * 1e-3) 1e-3)
        (fun i _ => by have : (0:ℝ) ≤ max (|v i| * 1e-3) 1e-3 := le_max_of_le_right (by norm_num)
                       linarith) (Finset.mem_range.mpr ha)⟩
  rcases lt_trichotomy a b with h | h | h
  · have g := crossLoop_inv n f v U W B hB0 hB a b h hb
    rw [(hessian_offdiag n f v U W a b (by omega)).1, (hessian_offdiag n f v U W b a (by omega)).1,
      (hessian_offdiag n f v U W a b (by omega)).2, (hessian_offdiag n f v U W b a (by omega)).2]
    exact ⟨g.1.symm, g.2.1.symm⟩
  · rw [h]; exact ⟨rfl, rfl⟩
  · have g := crossLoop_inv n f v U W B hB0 hB b a h ha
    rw [(hessian_offdiag n f v U W a b (by omega)).1, (hessian_offdiag n f v U W b a (by omega)).1,
      (hessian_offdiag n f v U W a b (by omega)).2, (hessian_offdiag n f v U W b a (by omega)).2]
    exact ⟨g.1, g.2.1⟩

/-- **C49** (diagonal of the Hessian): entry `(i, i)` and its error are Ridders' result for the second difference quotient along axis
`i` at the given point, whatever happened for the other axes. -/
theorem c49_hessian_diagonal (n : Nat) (f : Vec ℝ → Option ℝ) (v : Vec ℝ) (U W : Mat (Option ℝ)) (i : Nat) (hi : i < n) :
    Ridders (fun k => secondDiff f v i (node k * max (|v i| * 1e-3) 1e-3)) ((hessian n f v U W).1 i i, (hessian n f v U W).2 i i) := by
  obtain ⟨m, g1, g2, _, _, g5, g6, g7⟩ := extrapolate_spec (secondCall f v (f v) i) v
  rw [secondVals] at g5 g6 g7
  refine ⟨m, g1, g2, g5, g6, ?_⟩
  unfold hessian
  simp only
  rw [(diagLoop_inv n f v _ _).1, (diagLoop_inv n f v _ _).2, if_pos ⟨rfl, hi⟩, if_pos ⟨rfl, hi⟩]
  exact g7

/-- **C49** (off-diagonal entries, what does hold): entry `(r, c)`, `r < c`, and its error are Ridders' result for the cross
difference quotient in the plane of the axes `r` and `c` through a point `q` whose other coordinates differ from the given
point by at most the largest step size; `q` is the given point itself (off the plane) for the pair `(0, 1)`, and more generally
in the coordinates after `c` when `r = 0`.  Missing for the full claim: `q` should be the given point, see
`c49_hessian_perturbed_wrong`. -/
theorem c49_hessian_cross_partial (n : Nat) (f : Vec ℝ → Option ℝ) (v : Vec ℝ) (U W : Mat (Option ℝ)) (B : ℝ)
    (hB : ∀ a < n, max (|v a| * 1e-3) 1e-3 ≤ B) (r cc : Nat) (hrc : r < cc) (hcn : cc < n) :
    ∃ q : Vec ℝ, (∀ k, |q k - v k| ≤ B) ∧ (r = 0 → ∀ k, cc < k → q k = v k) ∧
      Ridders (fun k => crossDiff f v q r cc (node k * max (|v r| * 1e-3) 1e-3))
        ((hessian n f v U W).1 r cc, (hessian n f v U W).2 r cc) := by
  have hB0 : 0 ≤ B := le_trans (le_max_of_le_right (by norm_num)) (hB r (by omega))
  obtain ⟨_, _, q, h1, h2, h3⟩ := crossLoop_inv n f v U W B hB0 (fun a ha => by rw [one_mul]; exact hB a ha) r cc hrc hcn
  refine ⟨q, h1, h2, ?_⟩
  obtain ⟨m, g1, g2, _, _, g5, g6, g7⟩ := extrapolate_spec (crossCall f v r cc) q
  rw [crossVals f v q r cc (by omega)] at g5 g6 g7
  refine ⟨m, g1, g2, g5, g6, ?_⟩
  rw [(hessian_offdiag n f v U W r cc (by omega)).1, (hessian_offdiag n f v U W r cc (by omega)).2]
  rw [h3] at g7
  exact g7

/-- **C49**: for functions of two variables all entries are evaluated at the given point. -/
theorem c49_hessian_two (f : Vec ℝ → Option ℝ) (v : Vec ℝ) (U W : Mat (Option ℝ)) :
    Ridders (fun k => crossDiff f v v 0 1 (node k * max (|v 0| * 1e-3) 1e-3)) ((hessian 2 f v U W).1 0 1, (hessian 2 f v U W).2 0 1) := by
  obtain ⟨q, _, h2, h3⟩ := c49_hessian_cross_partial 2 f v U W (max (max (|v 0| * 1e-3) 1e-3) (max (|v 1| * 1e-3) 1e-3))
    (fun a ha => by
      have : a = 0 ∨ a = 1 := by omega
      rcases this with rfl | rfl
      · exact le_max_left _ _
      · exact le_max_right _ _) 0 1 (by norm_num) (by norm_num)
  have : (fun k => crossDiff f v v 0 1 (node k * max (|v 0| * 1e-3) 1e-3)) =
      fun k => crossDiff f v q 0 1 (node k * max (|v 0| * 1e-3) 1e-3) := by
    funext k
    exact crossDiff_congr f v v q 0 1 _ (fun i h0 h1 => (h2 rfl i (by omega)).symm)
  rw [this]; exact h3

/-- **C49**: the description of the result determines it: there is exactly one pair satisfying it. -/
theorem c49_ridders_unique (y : Nat → Option ℝ) : ∃! res, Ridders y res := by
  have ex : ∃ res, Ridders y res := by
    have hv : vals (S := Nat) (fun k _ => (y k, k + 1)) 0 = y := by
      have ht : ∀ k, traj (S := Nat) (fun k _ => (y k, k + 1)) 0 k = k := by
        intro k; induction k with
        | zero => rfl
        | succ k ih => rw [traj, ih]
      funext k; rw [vals, ht]
    obtain ⟨m, g1, g2, _, _, g5, g6, g7⟩ := extrapolate_spec (S := Nat) (fun k _ => (y k, k + 1)) 0
    rw [hv] at g5 g6 g7
    exact ⟨_, m, g1, g2, g5, g6, g7⟩
  obtain ⟨r, hr⟩ := ex
  refine ⟨r, hr, ?_⟩
  rintro r' ⟨m', a1, a2, a3, a4, a5⟩
  obtain ⟨m, b1, b2, b3, b4, b5⟩ := hr
  have hm : m' = m := by
    rcases lt_trichotomy m' m with h | h | h
    · rcases a4 with e | e
      · omega
      · exact absurd e (b3 (m' - 1) (by omega))
    · exact h
    · rcases b4 with e | e
      · omega
      · exact absurd e (a3 (m - 1) (by omega))
  subst hm
  rcases a5 with ⟨p1, p2⟩ | ⟨i, j, p, e, p1, p2, p3, p4, p5⟩
  · rcases b5 with ⟨q1, q2⟩ | ⟨i', j', p', e', q1, q2, q3, q4, q5⟩
    · rw [p2, q2]
    · rw [p1 i' j' q1] at q3; exact absurd q3 (by simp)
  · rcases b5 with ⟨q1, q2⟩ | ⟨i', j', p', e', q1, q2, q3, q4, q5⟩
    · rw [q1 i j p1] at p3; exact absurd p3 (by simp)
    · have l1 := p5 i' j' e' q1 q3
      have l2 := q5 i j e p1 p3
      have hij : i = i' ∧ j = j' := by
        rcases lt_trichotomy i i' with h | h | h
        · have := l2.2 (Or.inl h); linarith [l1.1]
        · rcases lt_trichotomy j j' with g | g | g
          · have := l2.2 (Or.inr ⟨h, g⟩); linarith [l1.1]
          · exact ⟨h, g⟩
          · have := l1.2 (Or.inr ⟨h.symm, g⟩); linarith [l2.1]
        · have := l1.2 (Or.inl h); linarith [l2.1]
      obtain ⟨rfl, rfl⟩ := hij
      rw [p4, q4]
      rw [p2] at q2; rw [p3] at q3
      rw [q2, q3]

/-- Ridders' method on `A + B h²` -/
theorem ridders_even (y : Nat → Option ℝ) (A B : ℝ) (hy : ∀ k, y k = some (A + B * node k ^ 2)) (res : Option ℝ × Option ℝ)
    (h : Ridders y res) : res = (some A, some 0) := by
  have hv : vals (S := Nat) (fun k _ => (y k, k + 1)) 0 = y := by
    have ht : ∀ k, traj (S := Nat) (fun k _ => (y k, k + 1)) 0 k = k := by
      intro k; induction k with
      | zero => rfl
      | succ k ih => rw [traj, ih]
    funext k; rw [vals, ht]
  have h1 := c49_even_quadratic_exact (S := Nat) (fun k _ => (y k, k + 1)) 0 A B (fun k => by rw [hv]; exact hy k)
  obtain ⟨m, g1, g2, _, _, g5, g6, g7⟩ := extrapolate_spec (S := Nat) (fun k _ => (y k, k + 1)) 0
  rw [hv] at g5 g6 g7
  rw [← h1]
  exact (c49_ridders_unique y).unique h ⟨m, g1, g2, g5, g6, g7⟩

/-- **C49**: a diagonal entry is exact, with error estimate 0, when the function is a polynomial of degree at most 5 along that axis. -/
theorem c49_hessian_diagonal_quintic (n : Nat) (f : Vec ℝ → Option ℝ) (v : Vec ℝ) (U W : Mat (Option ℝ)) (i : Nat) (hi : i < n)
    (a0 a1 a2 a3 a4 a5 : ℝ)
    (hf : ∀ s, f (Vec.set v i (v i + s)) = some (a0 + a1 * s + a2 * s ^ 2 + a3 * s ^ 3 + a4 * s ^ 4 + a5 * s ^ 5)) :
    (hessian n f v U W).1 i i = some (2 * a2) ∧ (hessian n f v U W).2 i i = some 0 := by
  have := ridders_even _ (2 * a2) (2 * a4 * (max (|v i| * 1e-3) 1e-3) ^ 2) (fun k => ?_) _ (c49_hessian_diagonal n f v U W i hi)
  · simpa using this
  · have hp : 0 < node k * max (|v i| * 1e-3) 1e-3 := step_pos v i k
    have e : 2 * a2 + 2 * a4 * max (|v i| * 1e-3) 1e-3 ^ 2 * node k ^ 2 =
      2 * a2 + 2 * a4 * (node k * max (|v i| * 1e-3) 1e-3) ^ 2 := by ring
    rw [e]
    generalize node k * max (|v i| * 1e-3) 1e-3 = h at *
    have hm : f (Vec.set v i (v i - h)) = some (a0 + a1 * (-h) + a2 * (-h) ^ 2 + a3 * (-h) ^ 3 + a4 * (-h) ^ 4 + a5 * (-h) ^ 5) := by
      rw [sub_eq_add_neg]; exact hf _
    have h0 : f v = some a0 := by
      have := hf 0
      rw [add_zero, set_self] at this
      rw [this]; simp
    unfold secondDiff
    rw [hm, hf, h0]
    simp only [Option.some.injEq]
    have := hp.ne'
    field_simp
    ring

/-- the form of a polynomial of degree at most 3 in each of two variables, up to terms in one variable only -/
theorem crossDiff_poly (f : Vec ℝ → Option ℝ) (v q : Vec ℝ) (i j : Nat) (h : ℝ) (hp : 0 < h) (P Q : ℝ → ℝ) (a b c d e g : ℝ)
    (hf : ∀ s t, f (planePt v q i j s t) = some (P s + Q t + a * (s * t) + b * (s ^ 2 * t) + c * (s * t ^ 2) + d * (s ^ 2 * t ^ 2) +
      e * (s ^ 3 * t) + g * (s * t ^ 3))) : crossDiff f v q i j h = some (a + (e + g) * h ^ 2) := by
  unfold crossDiff
  rw [hf, hf, hf, hf]
  simp only [Option.some.injEq]
  have := hp.ne'
  field_simp
  ring

/-- **C49**: for functions of two variables the mixed derivative is exact, with error estimate 0, on polynomials of total degree at
most 4 (in fact on the larger class below: arbitrary functions of one variable may be added). -/
theorem c49_hessian_two_poly (f : Vec ℝ → Option ℝ) (v : Vec ℝ) (U W : Mat (Option ℝ)) (P Q : ℝ → ℝ) (a b c d e g : ℝ)
    (hf : ∀ s t, f (Vec.set (Vec.set v 0 (v 0 + s)) 1 (v 1 + t)) = some (P s + Q t + a * (s * t) + b * (s ^ 2 * t) + c * (s * t ^ 2) +
      d * (s ^ 2 * t ^ 2) + e * (s ^ 3 * t) + g * (s * t ^ 3))) :
    (hessian 2 f v U W).1 0 1 = some a ∧ (hessian 2 f v U W).2 0 1 = some 0 := by
  have := ridders_even _ a ((e + g) * (max (|v 0| * 1e-3) 1e-3) ^ 2) (fun k => ?_) _ (c49_hessian_two f v U W)
  · simpa using this
  · have hp : 0 < node k * max (|v 0| * 1e-3) 1e-3 := step_pos v 0 k
    rw [crossDiff_poly f v v 0 1 _ hp P Q a b c d e g hf]
    congr 1; ring

/-- `x₀³x₁ + x₀²x₁ + exp-like terms` meets the hypotheses: mixed derivative of `x₀³ x₁ + 5 x₁²` at `(2, 3)` is `12` -/
example (U W : Mat (Option ℝ)) :
    (hessian 2 (fun x => some (x 0 ^ 3 * x 1 + 5 * x 1 ^ 2)) (fun i => if i = 0 then 2 else 3) U W).1 0 1 = some 12 :=
  (c49_hessian_two_poly _ _ U W (fun s => 3 * (2 + s) ^ 3) (fun t => 8 * t + 5 * (3 + t) ^ 2) 12 6 0 0 1 0
    (fun s t => by simp [Vec.set]; ring)).1

/-- a quadratic function of `n` variables -/
def quad (n : Nat) (k : ℝ) (b : Vec ℝ) (A : Mat ℝ) : Vec ℝ → Option ℝ := fun x =>
  some (k + ∑ i ∈ Finset.range n, b i * x i + ∑ i ∈ Finset.range n, ∑ j ∈ Finset.range n, A i j * x i * x j)

theorem lin_set (n : Nat) (b x : Vec ℝ) (i : Nat) (hi : i < n) (s : ℝ) :
    ∑ k ∈ Finset.range n, b k * Vec.set x i s k = ∑ k ∈ Finset.range n, b k * Vec.set x i 0 k + b i * s := by
  have : ∀ k, b k * Vec.set x i s k = b k * Vec.set x i 0 k + (if k = i then b i * s else 0) := by
    intro k; simp only [Vec.set]; split_ifs with h <;> simp [h]
  rw [Finset.sum_congr rfl (fun k _ => this k), Finset.sum_add_distrib, Finset.sum_ite_eq' (Finset.range n) i]
  simp [hi]

theorem quad_set (n : Nat) (b : Vec ℝ) (A : Mat ℝ) (x : Vec ℝ) (i : Nat) (hi : i < n) (s : ℝ) :
    ∑ k ∈ Finset.range n, ∑ l ∈ Finset.range n, A k l * Vec.set x i s k * Vec.set x i s l =
      ∑ k ∈ Finset.range n, ∑ l ∈ Finset.range n, A k l * Vec.set x i 0 k * Vec.set x i 0 l +
      (∑ k ∈ Finset.range n, (A k i + A i k) * Vec.set x i 0 k) * s + A i i * s ^ 2 := by
  have hx : ∀ k, Vec.set x i s k = Vec.set x i 0 k + (if k = i then s else 0) := by
    intro k; simp only [Vec.set]; split_ifs <;> simp
  have h0 : Vec.set x i 0 i = 0 := by simp [Vec.set]
  generalize Vec.set x i 0 = z at *
  have e : ∀ k l, A k l * Vec.set x i s k * Vec.set x i s l = A k l * z k * z l + (if l = i then A k i * z k * s else 0) +
      (if k = i then A i l * z l * s else 0) + (if k = i then (if l = i then A i i * s ^ 2 else 0) else 0) := by
    intro k l
    rw [hx k, hx l]
    by_cases h1 : k = i <;> by_cases h2 : l = i <;> simp [h1, h2] <;> ring
  simp only [e, Finset.sum_add_distrib]
  have hm := Finset.mem_range.mpr hi
  have t1 : ∑ k ∈ Finset.range n, ∑ l ∈ Finset.range n, (if l = i then A k i * z k * s else 0) =
      (∑ k ∈ Finset.range n, A k i * z k) * s := by
    rw [Finset.sum_mul]
    exact Finset.sum_congr rfl (fun k _ => by rw [Finset.sum_ite_eq' (Finset.range n) i]; simp [hm])
  have t2 : ∑ k ∈ Finset.range n, ∑ l ∈ Finset.range n, (if k = i then A i l * z l * s else 0) =
      (∑ k ∈ Finset.range n, A i k * z k) * s := by
    rw [Finset.sum_comm, Finset.sum_mul]
    exact Finset.sum_congr rfl (fun k _ => by rw [Finset.sum_ite_eq' (Finset.range n) i]; simp [hm])
  have t3 : ∑ k ∈ Finset.range n, ∑ l ∈ Finset.range n, (if k = i then (if l = i then A i i * s ^ 2 else 0) else 0) = A i i * s ^ 2 := by
    rw [Finset.sum_eq_single i]
    · simp [hm]
    · intro k _ hk; simp [hk]
    · intro h; exact absurd hm h
  rw [t1, t2, t3]
  simp only [add_mul, Finset.sum_add_distrib]
  ring

/-- **C49**: on a quadratic function of any number of variables the whole Hessian is exact, with error estimates 0. -/
theorem c49_hessian_quadratic (n : Nat) (k : ℝ) (b : Vec ℝ) (A : Mat ℝ) (v : Vec ℝ) (U W : Mat (Option ℝ)) (r cc : Nat) (hr : r < n)
    (hc : cc < n) : (hessian n (quad n k b A) v U W).1 r cc = some (A r cc + A cc r) ∧
      (hessian n (quad n k b A) v U W).2 r cc = some 0 := by
  have offd : ∀ r cc, r < cc → cc < n → (hessian n (quad n k b A) v U W).1 r cc = some (A r cc + A cc r) ∧
      (hessian n (quad n k b A) v U W).2 r cc = some 0 := by
    intro r cc hrc hc
    obtain ⟨B, hB⟩ : ∃ B : ℝ, ∀ a < n, max (|v a| * 1e-3) 1e-3 ≤ B :=
      ⟨∑ i ∈ Finset.range n, max (|v i| * 1e-3) 1e-3, fun a ha => Finset.single_le_sum (f := fun i => max (|v i| * 1e-3) 1e-3)
        (fun i _ => le_max_of_le_right (by norm_num)) (Finset.mem_range.mpr ha)⟩
    obtain ⟨q, _, _, hq⟩ := c49_hessian_cross_partial n (quad n k b A) v U W B hB r cc hrc hc
    have := ridders_even _ (A r cc + A cc r) 0 (fun m => ?_) _ hq
    · simpa using this
    have hp : 0 < node m * max (|v r| * 1e-3) 1e-3 := step_pos v r m
    generalize node m * max (|v r| * 1e-3) 1e-3 = h at *
    unfold crossDiff quad planePt
    have hne : r ≠ cc := by omega
    have hset : ∀ s, Vec.set (Vec.set q r s) cc 0 = Vec.set (Vec.set q cc 0) r s := by
      intro s; funext m; simp only [Vec.set]
      by_cases h1 : m = cc <;> by_cases h2 : m = r <;> simp [h1, h2] <;> omega
    have L : ∀ (w : Vec ℝ) (s t : ℝ), ∑ i ∈ Finset.range n, w i * Vec.set (Vec.set q r s) cc t i =
        ∑ i ∈ Finset.range n, w i * Vec.set (Vec.set q cc 0) r 0 i + w r * s + w cc * t := by
      intro w s t
      rw [lin_set n w _ cc hc, hset, lin_set n w _ r (by omega)]
    have Q : ∀ s t : ℝ, ∑ i ∈ Finset.range n, ∑ l ∈ Finset.range n, A i l * Vec.set (Vec.set q r s) cc t i *
        Vec.set (Vec.set q r s) cc t l =
        (∑ i ∈ Finset.range n, ∑ l ∈ Finset.range n, A i l * Vec.set (Vec.set q cc 0) r 0 i * Vec.set (Vec.set q cc 0) r 0 l +
          (∑ i ∈ Finset.range n, (A i r + A r i) * Vec.set (Vec.set q cc 0) r 0 i) * s + A r r * s ^ 2) +
        (∑ i ∈ Finset.range n, (A i cc + A cc i) * Vec.set (Vec.set q cc 0) r 0 i + (A r cc + A cc r) * s) * t + A cc cc * t ^ 2 := by
      intro s t
      rw [quad_set n b A _ cc hc, hset, quad_set n b A _ r (by omega), lin_set n (fun i => A i cc + A cc i) _ r (by omega)]
    simp only [Option.some.injEq, Q]
    simp only [L b]
    have := hp.ne'
    field_simp
    ring
  rcases lt_trichotomy r cc with h | h | h
  · exact offd r cc h hc
  · subst h
    have := c49_hessian_diagonal_quintic n (quad n k b A) v U W r hr
      (k + (∑ i ∈ Finset.range n, b i * Vec.set v r 0 i + b r * v r) +
        (∑ i ∈ Finset.range n, ∑ l ∈ Finset.range n, A i l * Vec.set v r 0 i * Vec.set v r 0 l +
          (∑ i ∈ Finset.range n, (A i r + A r i) * Vec.set v r 0 i) * v r + A r r * v r ^ 2))
      (b r + (∑ i ∈ Finset.range n, (A i r + A r i) * Vec.set v r 0 i) + 2 * A r r * v r) (A r r) 0 0 0 (fun s => by
        unfold quad
        rw [lin_set n b v r hr, quad_set n b A v r hr]
        congr 1
        ring)
    rw [this.1, this.2]
    refine ⟨?_, rfl⟩
    congr 1; ring
  · have g := offd cc r h hr
    have sy := c49_hessian_symmetric n (quad n k b A) v U W cc r hc hr
    rw [← sy.1, ← sy.2, g.1, g.2, add_comm]
    exact ⟨rfl, rfl⟩

/-- **C49** (a defect): with three or more variables, the mixed derivatives after the first are not evaluated at the given point.
For `f = x₀ x₁ x₂` at `0` every second derivative is `0`, but entry `(0, 2)` comes out as `-10⁻³·(10/11)³⁹⁹`, with reported error
`0`: the working copy of the point keeps the last perturbation made for the pair `(0, 1)`. -/
theorem c49_hessian_perturbed_wrong (U W : Mat (Option ℝ)) :
    (hessian 3 (fun x => some (x 0 * x 1 * x 2)) (fun _ => 0) U W).1 0 2 = some (-(1e-3 * (10 / 11) ^ 399)) ∧
    (hessian 3 (fun x => some (x 0 * x 1 * x 2)) (fun _ => 0) U W).2 0 2 = some 0 := by
  generalize hf : (fun x : Vec ℝ => some (x 0 * x 1 * x 2)) = f
  generalize hv : (fun _ : Nat => (0 : ℝ)) = v
  have vk : ∀ k, v k = 0 := fun k => by rw [← hv]
  rw [(hessian_offdiag 3 f v U W 0 2 (by norm_num)).1, (hessian_offdiag 3 f v U W 0 2 (by norm_num)).2]
  have unroll : crossLoop 3 f v U W = pairStep f v 1 2 (pairStep f v 0 2 (pairStep f v 0 1 (U, W, v))) := rfl
  rw [unroll]
  have keep : ∀ st, (pairStep f v 1 2 st).1 0 2 = st.1 0 2 ∧ (pairStep f v 1 2 st).2.1 0 2 = st.2.1 0 2 := by
    intro st; simp [pairStep, Mat.set]
  rw [(keep _).1, (keep _).2]
  have hs : ∀ k, step v 0 (node k) = node k * 1e-3 := by
    intro k; unfold step; rw [vk]; norm_num
  have c01 : ∀ k, vals (crossCall f v 0 1) v k = some 0 := by
    intro k
    rw [crossVals f v v 0 1 (by norm_num)]
    simp [crossDiff, planePt, Vec.set, ← hf, vk]
  have e01 := (extrapolate_const (crossCall f v 0 1) v 0 c01).2
  rw [show (400 : Nat) = 399 + 1 from rfl, crossTraj f v v 0 1 (by norm_num), hs] at e01
  have x1 : (pairStep f v 0 1 (U, W, v)).2.2 = planePt v v 0 1 (-(node 399 * 1e-3)) (-(node 399 * 1e-3)) := e01
  generalize pairStep f v 0 1 (U, W, v) = st at *
  have c02 : ∀ k, vals (crossCall f v 0 2) st.2.2 k = some (-(1e-3 * (10 / 11) ^ 399)) := by
    intro k
    rw [crossVals f v _ 0 2 (by norm_num), x1]
    have hp := node_pos k
    simp only [crossDiff, hs]
    have e : ∀ s t, f (planePt v (planePt v v 0 1 (-(node 399 * 1e-3)) (-(node 399 * 1e-3))) 0 2 s t) =
        some (s * (-(node 399 * 1e-3)) * t) := by
      intro s t
      simp [planePt, Vec.set, ← hf, vk]
    rw [e, e, e, e]
    simp only [Option.some.injEq]
    rw [show (1e-3 : ℝ) * (10 / 11) ^ 399 = node 399 * 1e-3 by rw [node, mul_comm]]
    generalize node 399 * 1e-3 = w
    generalize node k = x at *
    have : x ≠ 0 := hp.ne'
    field_simp
    ring
  have e02 := (extrapolate_const (crossCall f v 0 2) st.2.2 _ c02).1
  constructor
  · unfold pairStep
    simp only [e02]; simp [Mat.set]
  · unfold pairStep
    simp only [e02]; simp [Mat.set]

end
end TooN.Deriv
