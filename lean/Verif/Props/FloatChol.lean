import Verif.Proof.FloatChol
/-!
# C62: `Cholesky` in floating-point arithmetic

`compute`, `backsub`, … are the functions of `Model/Cholesky.lean` run with rounded arithmetic
(`Model/Float.lean`).  `lowerSym A` is the symmetric matrix given by the lower half of `A`; `rmat`, `.val` give
the real numbers represented.
-/
set_option linter.unusedSectionVars false
namespace TooN.Chol
open Finset
variable {ρ : Rounding}

theorem rmat_getL {n : ℕ} (m u : Mat (Fl ρ)) (r c : ℕ) (hr : r < n) (hc : c < n) :
    rmat (getUnscaledL n m u) r c = lf m r c := by
  unfold rmat lf
  rw [getUnscaledL_apply n m u r c hr hc]
  split_ifs <;> rfl

theorem rmat_getD {n : ℕ} (m u : Mat (Fl ρ)) (r : ℕ) (hr : r < n) : rmat (getD n m u) r r = (m r r).val := by
  unfold rmat
  rw [getD_apply n m u r r hr hr, if_pos rfl]

/-- **C62** the computed factors reproduce the matrix up to rounding:
`|A - L D Lᵀ| ≤ γₙ₊₁ |L| |D| |Lᵀ|` element by element -/
theorem c62_factor (n : ℕ) (hu : ((n + 1 : ℕ) : ℝ) * ρ.u < 1) (A u w : Mat (Fl ρ)) (hrank : (compute n A).2 = n)
    (r c : ℕ) (hr : r < n) (hc : c < n) :
    let L := rmat (getUnscaledL n (compute n A).1 u)
    let D := rmat (getD n (compute n A).1 w)
    |(lowerSym A r c).val - ∑ j ∈ range n, L r j * D j j * L c j| ≤
      gam ρ.u (n+1) * ∑ j ∈ range n, |L r j| * |D j j| * |L c j| := by
  intro L D
  rcases fcompute_spec n A with ⟨-, -, h⟩ | ⟨h, -⟩
  · obtain ⟨G, hG, e⟩ := ffull (n := n) h
    set m := (compute n A).1 with hm
    have eL : ∀ i j, i < n → j < n → L i j = lf m i j := fun i j hi hj => rmat_getL m u i j hi hj
    have eD : ∀ j, j < n → D j j = (m j j).val := fun j hj => rmat_getD m w j hj
    have s := fac_sum_err ρ.u_nonneg ρ.u_lt_one hu (range n) (fun j => lf m r j * (m j j).val * lf m c j)
      (G r c) (fun j _ => hG r c j)
    rw [← e r c hr hc] at s
    have e1 : ∑ j ∈ range n, L r j * D j j * L c j = ∑ j ∈ range n, lf m r j * (m j j).val * lf m c j :=
      sum_congr rfl fun j hj => by
        have := mem_range.1 hj
        rw [eL r j hr this, eL c j hc this, eD j this]
    have e2 : ∑ j ∈ range n, |L r j| * |D j j| * |L c j| = ∑ j ∈ range n, |lf m r j * (m j j).val * lf m c j| :=
      sum_congr rfl fun j hj => by
        have := mem_range.1 hj
        rw [eL r j hr this, eL c j hc this, eD j this, abs_mul, abs_mul]
    rw [e1, e2]
    exact s
  · omega

/-- **C62** `backsub` is backward stable relative to the computed factors: the result is the exact solution of a
system whose matrix differs from `A` by at most `γ₃ₙ |L| |D| |Lᵀ|` -/
theorem c62_backsub (n : ℕ) (hu : ((3 * n : ℕ) : ℝ) * ρ.u < 1) (A u w : Mat (Fl ρ)) (hrank : (compute n A).2 = n)
    (v y₀ x₀ : Vec (Fl ρ)) :
    let L := rmat (getUnscaledL n (compute n A).1 u)
    let D := rmat (getD n (compute n A).1 w)
    ∃ x, backsub n (compute n A).1 v y₀ x₀ = some x ∧ ∃ E : Mat ℝ,
      (∀ i k, i < n → k < n → |E i k| ≤ gam ρ.u (3 * n) * ∑ j ∈ range n, |L i j| * |D j j| * |L k j|) ∧
      ∀ i, i < n → ∑ k ∈ range n, ((lowerSym A i k).val + E i k) * (x k).val = (v i).val := by
  intro L D
  rcases fcompute_spec n A with ⟨-, hd, h⟩ | ⟨h, -⟩
  · have h0 := ρ.u_nonneg
    have h1 := ρ.u_lt_one
    set m := (compute n A).1 with hm
    refine ⟨_, by rw [backsub, divDiag_some n m _ hd, Option.bind_some], ?_⟩
    rcases Nat.eq_zero_or_pos n with hn0 | hnp
    · exact ⟨fun _ _ => 0, fun i k hi => by omega, fun i hi => by omega⟩
    obtain ⟨G, hG, e⟩ := ffull (n := n) h
    obtain ⟨F, hF, eF⟩ := fsolve n 1 m v y₀
      (fun i => if i < n then fwd n m v y₀ i / m i i else fwd n m v y₀ i) x₀
      (by
        intro j hj
        obtain ⟨f, hf, ef⟩ := Fl.div_fac (fwd n m v y₀ j) (m j j)
        refine ⟨f⁻¹, hf.inv h0 h1, ?_⟩
        have f0 := (hf.pos h0 h1).ne'
        have d0 : (m j j).val ≠ 0 := fun h => hd j hj ((Fl.eq_zero_iff _).2 h)
        rw [if_pos hj, ef]
        field_simp)
    have hN : n - 1 + 1 + (n - 1) + (n + 1) = 3 * n := by omega
    obtain ⟨E, hE, eE⟩ := fbackward n (n - 1 + 1 + (n - 1)) (n + 1) (by rw [hN]; exact hu) (lf m)
      (fun j => (m j j).val) (fun r c => (lowerSym A r c).val) (fun i => (v i).val) _ F G hF hG eF e
    refine ⟨E, fun i k hi hk => ?_, eE⟩
    have := hE i k hi hk
    rw [hN] at this
    refine le_trans this (le_of_eq ?_)
    congr 1
    refine sum_congr rfl fun j hj => ?_
    have hjn := mem_range.1 hj
    rw [show L i j = lf m i j from rmat_getL m u i j hi hjn, show L k j = lf m k j from rmat_getL m u k j hk hjn,
      show D j j = (m j j).val from rmat_getD m w j hjn]
  · omega

/-- the bound `|L| |D| |Lᵀ|` in terms of the matrix itself, when the computed `D` is positive -/
theorem ldl_bound (n : ℕ) (hu : ((n + 1 : ℕ) : ℝ) * ρ.u < 1) (hγ : gam ρ.u (n+1) < 1) (A u w : Mat (Fl ρ))
    (hrank : (compute n A).2 = n) (hD : ∀ j, j < n → 0 < ((compute n A).1 j j).val) (r c : ℕ) (hr : r < n)
    (hc : c < n) :
    ∑ j ∈ range n, |rmat (getUnscaledL n (compute n A).1 u) r j| * |rmat (getD n (compute n A).1 w) j j| *
        |rmat (getUnscaledL n (compute n A).1 u) c j| ≤
      Real.sqrt ((A r r).val * (A c c).val) / (1 - gam ρ.u (n+1)) := by
  have h0 := ρ.u_nonneg
  have h1 := ρ.u_lt_one
  rcases fcompute_spec n A with ⟨-, -, h⟩ | ⟨h, -⟩
  · obtain ⟨G, hG, e⟩ := ffull (n := n) h
    set m := (compute n A).1 with hm
    have hD' : ∀ j, j < n → 0 ≤ (fun j => (m j j).val) j := fun j hj => (hD j hj).le
    have b : ∀ i, i < n → ∑ j ∈ range n, lf m i j ^ 2 * (m j j).val ≤ (A i i).val / (1 - gam ρ.u (n+1)) := by
      intro i hi
      refine diag_bound n _ hγ (lf m) (fun j => (m j j).val) hD' i (G i i)
        (fun j => (hG i i j).gam h0 h1 hu) _ ?_
      have := e i i hi hi
      rwa [lowerSym, if_pos le_rfl] at this
    have nn : ∀ i, 0 ≤ ∑ j ∈ range n, lf m i j ^ 2 * (m j j).val := fun i =>
      sum_nonneg fun j hj => mul_nonneg (sq_nonneg _) (hD j (mem_range.1 hj)).le
    have hp : 0 < 1 - gam ρ.u (n+1) := by linarith
    have e2 : ∑ j ∈ range n, |rmat (getUnscaledL n m u) r j| * |rmat (getD n m w) j j| *
        |rmat (getUnscaledL n m u) c j| = ∑ j ∈ range n, |lf m r j| * |(m j j).val| * |lf m c j| :=
      sum_congr rfl fun j hj => by
        have := mem_range.1 hj
        rw [rmat_getL m u r j hr this, rmat_getL m u c j hc this, rmat_getD m w j this]
    rw [e2]
    refine le_trans (cauchy_bound n (lf m) (fun j => (m j j).val) hD' r c) ?_
    have ar : 0 ≤ (A r r).val := by
      have := le_trans (nn r) (b r hr)
      by_contra hcon; push Not at hcon
      exact absurd this (not_le.2 (div_neg_of_neg_of_pos hcon hp))
    calc Real.sqrt (∑ j ∈ range n, lf m r j ^ 2 * (m j j).val) * Real.sqrt (∑ j ∈ range n, lf m c j ^ 2 * (m j j).val)
        ≤ Real.sqrt ((A r r).val / (1 - gam ρ.u (n+1))) * Real.sqrt ((A c c).val / (1 - gam ρ.u (n+1))) :=
          mul_le_mul (Real.sqrt_le_sqrt (b r hr)) (Real.sqrt_le_sqrt (b c hc)) (Real.sqrt_nonneg _) (Real.sqrt_nonneg _)
      _ = _ := by
          rw [← Real.sqrt_mul (div_nonneg ar hp.le), div_mul_div_comm, Real.sqrt_div' _ (by positivity),
            Real.sqrt_mul_self hp.le]
  · omega

/-- **C62** when the computed `D` is positive the backward errors are small relative to `A` itself, whatever its
condition number: `|E_rc| ≤ γ/(1-γₙ₊₁) √(A_rr A_cc)` -/
theorem c62_stable (n : ℕ) (hu : ((3 * n + 1 : ℕ) : ℝ) * ρ.u < 1) (hγ : gam ρ.u (n+1) < 1) (A u w : Mat (Fl ρ))
    (hrank : (compute n A).2 = n) (hD : ∀ j, j < n → 0 < ((compute n A).1 j j).val) (v y₀ x₀ : Vec (Fl ρ)) :
    (∀ r c, r < n → c < n →
      |(lowerSym A r c).val - ∑ j ∈ range n, rmat (getUnscaledL n (compute n A).1 u) r j *
          rmat (getD n (compute n A).1 w) j j * rmat (getUnscaledL n (compute n A).1 u) c j| ≤
        gam ρ.u (n+1) / (1 - gam ρ.u (n+1)) * Real.sqrt ((A r r).val * (A c c).val)) ∧
    ∃ x, backsub n (compute n A).1 v y₀ x₀ = some x ∧ ∃ E : Mat ℝ,
      (∀ i k, i < n → k < n →
        |E i k| ≤ gam ρ.u (3 * n) / (1 - gam ρ.u (n+1)) * Real.sqrt ((A i i).val * (A k k).val)) ∧
      ∀ i, i < n → ∑ k ∈ range n, ((lowerSym A i k).val + E i k) * (x k).val = (v i).val := by
  have h0 := ρ.u_nonneg
  have h1 := ρ.u_lt_one
  push_cast at hu
  have hn0 : (0:ℝ) ≤ n := Nat.cast_nonneg n
  have hu1 : ((n + 1 : ℕ) : ℝ) * ρ.u < 1 := by push_cast; nlinarith
  have hu3 : ((3 * n : ℕ) : ℝ) * ρ.u < 1 := by push_cast; nlinarith
  constructor
  · intro r c hr hc
    refine le_trans (c62_factor n hu1 A u w hrank r c hr hc) ?_
    refine le_trans (mul_le_mul_of_nonneg_left (ldl_bound n hu1 hγ A u w hrank hD r c hr hc)
      (gam_nonneg h0 h1 hu1)) (le_of_eq (by ring))
  · obtain ⟨x, hx, E, hE, eE⟩ := c62_backsub n hu3 A u w hrank v y₀ x₀
    refine ⟨x, hx, E, fun i k hi hk => le_trans (hE i k hi hk) ?_, eE⟩
    refine le_trans (mul_le_mul_of_nonneg_left (ldl_bound n hu1 hγ A u w hrank hD i k hi hk)
      (gam_nonneg h0 h1 hu3)) (le_of_eq (by ring))

/-- **C62** the factorisation cannot break down on a numerically positive definite matrix: if
`xᵀAx ≥ μ ∑ Aᵢᵢ xᵢ²` with `μ > n γ/(1-γ)` (the smallest eigenvalue of the matrix scaled to unit diagonal exceeds
the rounding level), then `rank()` is `n` and every element of `get_D()` is positive -/
theorem c62_success (n : ℕ) (A : Mat (Fl ρ)) (hu : ((n + 1 : ℕ) : ℝ) * ρ.u < 1) (hγ : gam ρ.u (n+1) < 1)
    (μ : ℝ) (hμ : n * (gam ρ.u (n+1) / (1 - gam ρ.u (n+1))) < μ) (hpos : ∀ i, i < n → 0 < (A i i).val)
    (hpd : ∀ x : Vec ℝ, μ * ∑ i ∈ range n, (A i i).val * x i ^ 2 ≤
      ∑ r ∈ range n, ∑ c ∈ range n, x r * x c * (lowerSym A r c).val) (w : Mat (Fl ρ)) :
    (compute n A).2 = n ∧ ∀ c, c < n → 0 < rmat (getD n (compute n A).1 w) c c := by
  obtain ⟨h1, h2⟩ := fsuccess n A hu hγ μ hμ hpos hpd
  exact ⟨h1, fun c hc => by rw [rmat_getD _ w c hc]; exact h2 c hc⟩

/-- **C62** together: solving with a numerically positive definite matrix always succeeds and is backward stable -/
theorem c62_solve (n : ℕ) (A : Mat (Fl ρ)) (hu : ((3 * n + 1 : ℕ) : ℝ) * ρ.u < 1) (hγ : gam ρ.u (n+1) < 1)
    (μ : ℝ) (hμ : n * (gam ρ.u (n+1) / (1 - gam ρ.u (n+1))) < μ) (hpos : ∀ i, i < n → 0 < (A i i).val)
    (hpd : ∀ x : Vec ℝ, μ * ∑ i ∈ range n, (A i i).val * x i ^ 2 ≤
      ∑ r ∈ range n, ∑ c ∈ range n, x r * x c * (lowerSym A r c).val) (v y₀ x₀ : Vec (Fl ρ)) :
    ∃ x, backsub n (compute n A).1 v y₀ x₀ = some x ∧ ∃ E : Mat ℝ,
      (∀ i k, i < n → k < n →
        |E i k| ≤ gam ρ.u (3 * n) / (1 - gam ρ.u (n+1)) * Real.sqrt ((A i i).val * (A k k).val)) ∧
      ∀ i, i < n → ∑ k ∈ range n, ((lowerSym A i k).val + E i k) * (x k).val = (v i).val := by
  have hu1 : ((n + 1 : ℕ) : ℝ) * ρ.u < 1 := by
    have h0 := ρ.u_nonneg
    have hn0 : (0:ℝ) ≤ n := Nat.cast_nonneg n
    push_cast at *; nlinarith
  obtain ⟨h1, h2⟩ := fsuccess n A hu1 hγ μ hμ hpos hpd
  exact (c62_stable n hu hγ A A A h1 h2 v y₀ x₀).2

/-- **C62** `backsub` of a matrix: every column of the result is backward stable (one more rounding, because the
diagonal is inverted first); in particular `get_inverse()` -/
theorem c62_backsub_matrix (n nc : ℕ) (hu : ((3 * n + 1 : ℕ) : ℝ) * ρ.u < 1) (A u w : Mat (Fl ρ))
    (hrank : (compute n A).2 = n) (V y₀ x₀ : Mat (Fl ρ)) :
    let L := rmat (getUnscaledL n (compute n A).1 u)
    let D := rmat (getD n (compute n A).1 w)
    ∃ X, backsubM n nc (compute n A).1 V y₀ x₀ = some X ∧ ∀ q, q < nc → ∃ E : Mat ℝ,
      (∀ i k, i < n → k < n → |E i k| ≤ gam ρ.u (3 * n + 1) * ∑ j ∈ range n, |L i j| * |D j j| * |L k j|) ∧
      ∀ i, i < n → ∑ k ∈ range n, ((lowerSym A i k).val + E i k) * (X k q).val = (V i q).val := by
  intro L D
  rcases fcompute_spec n A with ⟨-, hd, h⟩ | ⟨h, -⟩
  · have h0 := ρ.u_nonneg
    have h1 := ρ.u_lt_one
    set m := (compute n A).1 with hm
    refine ⟨_, by rw [backsubM, divDiagM_gen n nc m _ hd, Option.bind_some], fun q hq => ?_⟩
    rcases Nat.eq_zero_or_pos n with hn0 | hnp
    · exact ⟨fun _ _ => 0, fun i k hi => by omega, fun i hi => by omega⟩
    obtain ⟨G, hG, e⟩ := ffull (n := n) h
    have hcol := bwdM_col n nc m
      (fun i k => if i < n ∧ k < nc then fwdM n nc m V y₀ i k * (1 / m i i) else fwdM n nc m V y₀ i k) x₀ q hq
    have hfw := fwdM_col n nc m V y₀ q hq
    obtain ⟨F, hF, eF⟩ := fsolve n 2 m (fun i => V i q) (fun i => y₀ i q)
      (fun i => if i < n ∧ q < nc then fwdM n nc m V y₀ i q * (1 / m i i) else fwdM n nc m V y₀ i q)
      (fun i => x₀ i q)
      (by
        intro j hj
        have hfj := congrFun hfw j
        beta_reduce at hfj
        rw [← hfj]
        obtain ⟨f, hf, ef⟩ := Fl.div_fac (1 : Fl ρ) (m j j)
        obtain ⟨g, hg, eg⟩ := Fl.mul_fac (fwdM n nc m V y₀ j q) (1 / m j j)
        refine ⟨(f * g)⁻¹, (hf.mul h0 h1 hg).inv h0 h1, ?_⟩
        have f0 := (hf.pos h0 h1).ne'
        have g0 := (hg.pos h0 h1).ne'
        have d0 : (m j j).val ≠ 0 := fun h => hd j hj ((Fl.eq_zero_iff _).2 h)
        rw [if_pos ⟨hj, hq⟩, eg, ef, Fl.val_one]
        field_simp)
    have hN : n - 1 + 2 + (n - 1) + (n + 1) = 3 * n + 1 := by omega
    rw [← hcol] at eF
    obtain ⟨E, hE, eE⟩ := fbackward n (n - 1 + 2 + (n - 1)) (n + 1) (by rw [hN]; exact hu) (lf m)
      (fun j => (m j j).val) (fun r c => (lowerSym A r c).val) (fun i => (V i q).val) _ F G hF hG eF e
    refine ⟨E, fun i k hi hk => ?_, eE⟩
    have := hE i k hi hk
    rw [hN] at this
    refine le_trans this (le_of_eq ?_)
    congr 1
    refine sum_congr rfl fun j hj => ?_
    have hjn := mem_range.1 hj
    rw [show L i j = lf m i j from rmat_getL m u i j hi hjn, show L k j = lf m k j from rmat_getL m u k j hk hjn,
      show D j j = (m j j).val from rmat_getD m w j hjn]
  · omega

/-- **C62** `determinant()` is the product of the computed pivots up to `n-1` roundings -/
theorem c62_determinant (n : ℕ) (hn : 0 < n) (hu : ((n - 1 : ℕ) : ℝ) * ρ.u < 1) (m : Mat (Fl ρ)) :
    |(determinant n m).val - ∏ j ∈ range n, (m j j).val| ≤ gam ρ.u (n - 1) * |∏ j ∈ range n, (m j j).val| := by
  have h0 := ρ.u_nonneg
  have h1 := ρ.u_lt_one
  have key : ∃ f, Fac ρ.u (n - 1) f ∧ (determinant n m).val = (∏ j ∈ range n, (m j j).val) * f := by
    unfold determinant
    refine forRange_inv (fun k (a : Fl ρ) => ∃ f, Fac ρ.u (k - 1) f ∧ a.val = (∏ j ∈ range k, (m j j).val) * f)
      1 n hn _ (m 0 0) ⟨1, Fac.one h0 h1 _, by simp⟩ ?_
    rintro k a hk1 hk2 ⟨f, hf, ea⟩
    obtain ⟨g, hg, eg⟩ := Fl.mul_fac a (m k k)
    refine ⟨f * g, ?_, ?_⟩
    · have := hf.mul h0 h1 hg
      rwa [show k - 1 + 1 = k + 1 - 1 by omega] at this
    · rw [eg, ea, prod_range_succ]; ring
  obtain ⟨f, hf, e⟩ := key
  rw [e, show ∀ x : ℝ, x * f - x = (f - 1) * x from fun x => by ring, abs_mul]
  exact mul_le_mul_of_nonneg_right (hf.gam h0 h1 hu) (abs_nonneg _)

/-- the hypotheses of `c62_solve` hold for `[[2,1],[1,2]]` in double precision, with `μ = 1/2` -/
example : ∃ x, backsub 2 (compute 2 (fun r c : ℕ => if r = c then Fl.of Rounding.double 2 else 1)).1
    (fun _ => 1) (fun _ => 0) (fun _ => 0) = some x := by
  have hu := Rounding.double_u
  have h2 : (Fl.of Rounding.double 2).val = 2 := by
    have := rndNearest_int 53 (by norm_num) 2 (by norm_num)
    exact_mod_cast this
  obtain ⟨x, hx, -⟩ := c62_solve (ρ := Rounding.double) 2
    (fun r c : ℕ => if r = c then Fl.of Rounding.double 2 else 1)
    (by rw [hu]; norm_num) (by rw [gam, hu]; norm_num) (1/2) (by rw [gam, hu]; norm_num)
    (by intro i _; rw [if_pos rfl, h2]; norm_num)
    (by
      intro x
      simp only [sum_range_succ, sum_range_zero, lowerSym]
      norm_num [h2]
      nlinarith [sq_nonneg (x 0 + x 1)])
    (fun _ => 1) (fun _ => 0) (fun _ => 0)
  exact ⟨x, hx⟩

end TooN.Chol
