import Verif.Proof.SymEigen3
/-!
# C31: the closed form 3×3 eigendecomposition

The eigenvalues are right for every nonzero symmetric matrix.  The eigenvectors are right when the eigenvalues are
separated by more than the code's threshold, or exactly two of them coincide and the eigenvector of the third is not a
multiple of `(1,1,1)`, or all three coincide.  The remaining cases are wrong: see the `_wrong` theorems.
-/
set_option linter.unusedSectionVars false
namespace TooN.SymEigen
open TooN.Ops TooN.Helpers Matrix

variable {V : Matrix (Fin 3) (Fin 3) ℝ} {l : Fin 3 → ℝ}

theorem isEigen_of_rows {n : Nat} {A V : Matrix (Fin n) (Fin n) ℝ} {l : Fin n → ℝ} (hV : V * Vᵀ = 1)
    (hA : ∀ i, A.mulVec (V i) = l i • V i) (hl : Monotone l) : IsEigen A V l := by
  refine ⟨hV, ?_, hl⟩
  have : A * Vᵀ = Vᵀ * diagonal l := by
    ext i j
    have := congrFun (hA j) i
    rw [mul_diagonal, transpose_apply]
    rw [Pi.smul_apply, smul_eq_mul, mul_comm] at this
    exact this
  rw [← this, Matrix.mul_assoc, mul_eq_one_comm.1 hV, Matrix.mul_one]

theorem norm1M_eq_zero (m : Mat ℝ) (h : norm1M 3 3 m = 0) : asM 3 3 m = 0 := by
  have hg := (c42_matrix_norms 3 3 m).2
  rw [h] at hg
  ext i j
  have h1 : ∑ r : Fin 3, |m r j| ≤ 0 := hg.2 (Or.inr ⟨j, j.2, rfl⟩)
  have h2 : |m i j| ≤ ∑ r : Fin 3, |m r j| :=
    Finset.single_le_sum (f := fun r : Fin 3 => |m r j|) (fun r _ => abs_nonneg _) (Finset.mem_univ i)
  have := abs_nonneg (m i j)
  show m i j = 0
  exact abs_eq_zero.1 (by linarith)

theorem norm1M_nonneg (m : Mat ℝ) : 0 ≤ norm1M 3 3 m := (c42_matrix_norms 3 3 m).2.2 (Or.inl rfl)

theorem eig_zero {n : Nat} {A V : Matrix (Fin n) (Fin n) ℝ} {l : Fin n → ℝ} (h : IsEigen A V l) (hA : A = 0) : l = 0 := by
  have : diagonal l = V * A * Vᵀ := by
    rw [← h.prod]
    calc diagonal l = (V * Vᵀ) * diagonal l * (V * Vᵀ) := by rw [h.orth]; simp
      _ = _ := by simp only [Matrix.mul_assoc]
  rw [hA] at this
  funext i
  have := congrFun (congrFun this i) i
  simpa using this

/-- the state after the eigenvalues, before the eigenvectors are normalised -/
noncomputable def rawEig (m : Mat ℝ) (eps : ℝ) (l : Fin 3 → ℝ) : Mat ℝ := fun r =>
  if r = 0 then (row3 m eps (l 0)).1 else if r = 1 then (row3 m eps (l 1)).1 else (row3 m eps (l 2)).1

open Classical in
/-- `compute3` with the eigenvalues filled in -/
theorem compute3_eq (m : Mat ℝ) (ev : Vec ℝ) (h : IsEigen (asM 3 3 m) V l) (h0 : norm1M 3 3 m ≠ 0) :
    compute3 m ev = (if (row3 m (1e-7 * norm1M 3 3 m) (l 0)).2 < 1e-7 * norm1M 3 3 m ∨
        (row3 m (1e-7 * norm1M 3 3 m) (l 1)).2 < 1e-7 * norm1M 3 3 m ∨
        (row3 m (1e-7 * norm1M 3 3 m) (l 2)).2 < 1e-7 * norm1M 3 3 m then
      let t := sort3 (α := ℝ × Nat) Prod.fst (((row3 m (1e-7 * norm1M 3 3 m) (l 0)).2, 0),
        ((row3 m (1e-7 * norm1M 3 3 m) (l 1)).2, 1), ((row3 m (1e-7 * norm1M 3 3 m) (l 2)).2, 2))
      if t.2.1.1 ≥ 1e-7 * norm1M 3 3 m then oneSmall (rawEig m (1e-7 * norm1M 3 3 m) l) t.1.2 t.2.1.2 t.2.2.2
      else if t.2.2.1 ≥ 1e-7 * norm1M 3 3 m then twoSmall (rawEig m (1e-7 * norm1M 3 3 m) l) t.1.2 t.2.1.2 t.2.2.2
      else some ident
    else
      (normRow (rawEig m (1e-7 * norm1M 3 3 m) l) 0).bind fun eig => (normRow eig 1).bind fun eig => normRow eig 2).map
        fun eig => ⟨3, eig, mk3 (l 0) (l 1) (l 2)⟩ := by
  unfold compute3
  rw [evals3_eq m h]
  dsimp only
  rw [if_neg h0]
  rfl

theorem asV_mk3 (l : Fin 3 → ℝ) : asV 3 (mk3 (l 0) (l 1) (l 2)) = l := by
  funext i; fin_cases i <;> simp [mk3]

/-- **C31** for every nonzero symmetric matrix the eigenvalues reported are the roots of the characteristic polynomial,
with multiplicity, in ascending order. -/
theorem c31_eigenvalues (m : Mat ℝ) (ev : Vec ℝ) (hm : (asM 3 3 m)ᵀ = asM 3 3 m) (h0 : asM 3 3 m ≠ 0) (s : St)
    (hs : compute3 m ev = some s) :
    (asM 3 3 m).charpoly = ∏ i : Fin 3, (Polynomial.X - Polynomial.C (s.evalues i)) ∧
    s.evalues 0 ≤ s.evalues 1 ∧ s.evalues 1 ≤ s.evalues 2 := by
  obtain ⟨Q, l, h1, h2, h3, h4⟩ := Spectral.sym_eig_exists 3 _ hm
  have h : IsEigen (asM 3 3 m) Qᵀ l := ⟨by rw [transpose_transpose]; exact h1, by rw [transpose_transpose]; exact h3.symm, h4⟩
  have hn : norm1M 3 3 m ≠ 0 := fun hn => h0 (norm1M_eq_zero m hn)
  rw [compute3_eq m ev h hn, Option.map_eq_some_iff] at hs
  obtain ⟨eig, -, rfl⟩ := hs
  refine ⟨?_, h4 (show (0 : Fin 3) ≤ 1 by decide), h4 (show (1 : Fin 3) ≤ 2 by decide)⟩
  apply Polynomial.funext
  intro x
  rw [Matrix.eval_charpoly, Polynomial.eval_prod]
  have := det_shift h x
  rw [smul_one_eq_diagonal] at this
  rw [Matrix.scalar_apply, this, Fin.prod_univ_three]
  simp [mk3]

/-- the zero matrix: the eigenvalues are left as they were -/
theorem c31_zero_matrix_wrong (m : Mat ℝ) (ev : Vec ℝ) (h0 : asM 3 3 m = 0) :
    compute3 m ev = some ⟨3, ident, ev⟩ := by
  have hn : norm1M 3 3 m = 0 := by
    obtain ⟨hx, -⟩ := (c42_matrix_norms 3 3 m).2
    rcases hx with hx | ⟨c, hc, hx⟩
    · exact hx
    · rw [hx]
      refine Finset.sum_eq_zero fun r _ => ?_
      have := congrFun (congrFun h0 r) ⟨c, hc⟩
      rw [abs_eq_zero]; exact this
  unfold compute3
  dsimp only
  rw [if_pos hn]

theorem normalize_mul (v : Vec ℝ) (w : Fin 3 → ℝ) (t : ℝ) (hv : ∀ i : Fin 3, v i = t * w i)
    (hw : w 0 * w 0 + w 1 * w 1 + w 2 * w 2 = 1) (ht : t ≠ 0) :
    ∃ r, normalize 3 v = some r ∧ ∀ i : Fin 3, r i = (t / |t|) * w i := by
  have hd : dot 3 v v = t * t := by
    have e0 := hv 0
    have e1 := hv 1
    have e2 := hv 2
    simp only [Fin.val_zero, Fin.val_one, Fin.val_two] at e0 e1 e2
    simp only [dot, forN, e0, e1, e2]; linear_combination (t * t) * hw
  have hs : Real.sqrt (dot 3 v v) = |t| := by rw [hd]; exact Real.sqrt_mul_self_eq_abs t
  have h0 : |t| ≠ 0 := abs_ne_zero.2 ht
  refine ⟨forN 3 (fun i v => Vec.set v i (v i / |t|)) v, ?_, ?_⟩
  · unfold Helpers.normalize; rw [hs, if_neg h0]
  · intro i
    rw [forN_vecupd 3 (fun _ x => x / |t|) v i, if_pos i.2, hv i]; ring

theorem sign_sq {t : ℝ} (ht : t ≠ 0) : t / |t| * (t / |t|) = 1 := by
  have h0 : |t| ≠ 0 := abs_ne_zero.2 ht
  rw [div_mul_div_comm, abs_mul_abs_self, div_self (mul_ne_zero ht ht)]

/-- eigenvectors are determined up to sign -/
theorem isEigen_signs {A W : Matrix (Fin 3) (Fin 3) ℝ} (h : IsEigen A V l) (σ : Fin 3 → ℝ) (hσ : ∀ i, σ i * σ i = 1)
    (hW : ∀ i j, W i j = σ i * V i j) : IsEigen A W l := by
  have e : W = diagonal σ * V := by ext i j; rw [diagonal_mul, hW]
  have hss : diagonal σ * diagonal σ = (1 : Matrix (Fin 3) (Fin 3) ℝ) := by
    rw [diagonal_mul_diagonal, ← diagonal_one]; congr 1; funext i; exact hσ i
  refine ⟨?_, ?_, h.asc⟩
  · rw [e, transpose_mul, diagonal_transpose]
    calc diagonal σ * V * (Vᵀ * diagonal σ) = diagonal σ * (V * Vᵀ) * diagonal σ := by simp only [Matrix.mul_assoc]
      _ = 1 := by rw [h.orth, Matrix.mul_one, hss]
  · rw [e, transpose_mul, diagonal_transpose]
    calc Vᵀ * diagonal σ * diagonal l * (diagonal σ * V) = Vᵀ * (diagonal σ * diagonal l * diagonal σ) * V := by
          simp only [Matrix.mul_assoc]
      _ = A := by
        rw [show diagonal σ * diagonal l * diagonal σ = diagonal l by
          rw [diagonal_mul_diagonal, diagonal_mul_diagonal]; congr 1; funext i
          linear_combination l i * hσ i]
        exact h.prod

/-- **C31** (separated eigenvalues) if the products of the differences of each eigenvalue to the two others exceed
`4e-7 norm_1(A)`, the result is an orthonormal eigendecomposition. Missing for the full claim: matrices with nearly
equal, but not equal, eigenvalues (where it is false: `c31_tiny_matrix_wrong`, `c31_one_small_wrong`). -/
theorem c31_separated_partial (m : Mat ℝ) (ev : Vec ℝ) (h : IsEigen (asM 3 3 m) V l)
    (h01 : 4 * (1e-7 * norm1M 3 3 m) < |(l 1 - l 0) * (l 2 - l 0)|)
    (h12 : 4 * (1e-7 * norm1M 3 3 m) < |(l 0 - l 1) * (l 2 - l 1)|)
    (h20 : 4 * (1e-7 * norm1M 3 3 m) < |(l 0 - l 2) * (l 1 - l 2)|) :
    ∃ s, compute3 m ev = some s ∧ s.n = 3 ∧ IsEigen (asM 3 3 m) (asM 3 3 s.evectors) (asV 3 s.evalues) ∧
      asV 3 s.evalues = l := by
  have hN := norm1M_nonneg m
  rw [← gap0] at h01; rw [← gap1] at h12; rw [← gap2] at h20
  have hn : norm1M 3 3 m ≠ 0 := by
    intro hn
    have := eig_zero h (norm1M_eq_zero m hn)
    rw [gap0, this, hn] at h01
    simp at h01
  have hpos : 0 < norm1M 3 3 m := lt_of_le_of_ne hN (Ne.symm hn)
  have heps : 0 < 1e-7 * norm1M 3 3 m := by positivity
  rw [compute3_eq m ev h hn]
  generalize 1e-7 * norm1M 3 3 m = eps at *
  have g : ∀ k, eps ≤ (row3 m eps (l k)).2 := by
    intro k; apply row3_large m h; fin_cases k
    · exact h01.le
    · exact h12.le
    · exact h20.le
  have hnz : ∀ k : Fin 3, ∃ t : ℝ, t ≠ 0 ∧ ∀ i : Fin 3, (row3 m eps (l k)).1 i = t * V k i := by
    intro k
    obtain ⟨t, ha, hb, -⟩ := row3_eq m h eps k
    refine ⟨t, ?_, ha⟩
    rintro rfl
    have := g k
    rw [hb, abs_zero, zero_mul] at this; linarith
  obtain ⟨t0, n0, e0⟩ := hnz 0
  obtain ⟨t1, n1, e1⟩ := hnz 1
  obtain ⟨t2, n2, e2⟩ := hnz 2
  obtain ⟨r0, a0, b0⟩ := normalize_mul _ _ t0 e0 (row_unit h 0) n0
  obtain ⟨r1, a1, b1⟩ := normalize_mul _ _ t1 e1 (row_unit h 1) n1
  obtain ⟨r2, a2, b2⟩ := normalize_mul _ _ t2 e2 (row_unit h 2) n2
  rw [if_neg (by
    rintro (h | h | h)
    · exact absurd h (not_lt.2 (g 0))
    · exact absurd h (not_lt.2 (g 1))
    · exact absurd h (not_lt.2 (g 2)))]
  have s0 : normRow (rawEig m eps l) 0 = some (setRow (rawEig m eps l) 0 r0) := by
    unfold normRow; rw [show rawEig m eps l 0 = (row3 m eps (l 0)).1 from rfl, a0]; rfl
  have s1 : normRow (setRow (rawEig m eps l) 0 r0) 1 = some (setRow (setRow (rawEig m eps l) 0 r0) 1 r1) := by
    unfold normRow; rw [show setRow (rawEig m eps l) 0 r0 1 = (row3 m eps (l 1)).1 from rfl, a1]; rfl
  have s2 : normRow (setRow (setRow (rawEig m eps l) 0 r0) 1 r1) 2 =
      some (setRow (setRow (setRow (rawEig m eps l) 0 r0) 1 r1) 2 r2) := by
    unfold normRow; rw [show setRow (setRow (rawEig m eps l) 0 r0) 1 r1 2 = (row3 m eps (l 2)).1 from rfl, a2]; rfl
  rw [s0, Option.bind_some, s1, Option.bind_some, s2]
  refine ⟨_, rfl, rfl, ?_, asV_mk3 l⟩
  rw [asV_mk3]
  refine isEigen_signs h ![t0 / |t0|, t1 / |t1|, t2 / |t2|] ?_ ?_
  · intro i; fin_cases i
    · exact sign_sq n0
    · exact sign_sq n1
    · exact sign_sq n2
  · intro i j
    fin_cases i
    · exact b0 j
    · exact b1 j
    · exact b2 j

/-- a matrix meeting the hypotheses: `diag(1, 2, 4)` -/
example : let m : Mat ℝ := fun r c => if r = c then (if r = 0 then 1 else if r = 1 then 2 else 4) else 0
    IsEigen (asM 3 3 m) 1 ![1, 2, 4] ∧ norm1M 3 3 m = 4 ∧
    4 * (1e-7 * norm1M 3 3 m) < |((2:ℝ) - 1) * (4 - 1)| := by
  intro m
  have hn : norm1M 3 3 m = 4 := by
    simp [norm1M, forN, m]; norm_num
  refine ⟨⟨by simp, ?_, ?_⟩, hn, by rw [hn]; norm_num⟩
  · ext i j; fin_cases i <;> fin_cases j <;> simp [m]
  · intro i j hij; fin_cases i <;> fin_cases j <;> simp at hij ⊢ <;> norm_num

/-- the row for an eigenvalue with a tiny gap is tiny -/
theorem row3_small (m : Mat ℝ) (h : IsEigen (asM 3 3 m) V l) (eps : ℝ) (k : Fin 3)
    (hg : 9 * |gap l k| < eps) : (row3 m eps (l k)).2 < eps := by
  obtain ⟨t, -, h2, h3⟩ := row3_eq m h eps k
  rw [h2]
  have hu := row_unit h k
  have hx : |V k 0| ≤ 1 := abs_le_one_iff_mul_self_le_one.2 (by nlinarith [mul_self_nonneg (V k 1), mul_self_nonneg (V k 2)])
  have hy : |V k 1| ≤ 1 := abs_le_one_iff_mul_self_le_one.2 (by nlinarith [mul_self_nonneg (V k 0), mul_self_nonneg (V k 2)])
  have hz : |V k 2| ≤ 1 := abs_le_one_iff_mul_self_le_one.2 (by nlinarith [mul_self_nonneg (V k 1), mul_self_nonneg (V k 0)])
  have ht : |t| ≤ |gap l k| * 3 := by
    have hgn := abs_nonneg (gap l k)
    rcases h3 with ⟨-, rfl⟩ | ⟨-, rfl⟩ | ⟨-, -, rfl⟩ <;> rw [abs_mul] <;> refine mul_le_mul_of_nonneg_left ?_ hgn
    · linarith
    · linarith [abs_add_le (V k 2) (V k 1)]
    · linarith [abs_add_le (V k 2) (V k 1), abs_add_le (V k 2 + V k 1) (V k 0)]
  have hS : |V k 0| + |V k 1| + |V k 2| ≤ 3 := by linarith
  have := mul_le_mul ht hS (by positivity) (by positivity)
  linarith

/-- **C31** when all eigenvalues are equal or closer than the code's threshold, the eigenvectors are the standard basis. -/
theorem c31_all_small (m : Mat ℝ) (ev : Vec ℝ) (h : IsEigen (asM 3 3 m) V l) (h0 : asM 3 3 m ≠ 0)
    (hg : ∀ k, 9 * |gap l k| < 1e-7 * norm1M 3 3 m) :
    compute3 m ev = some ⟨3, ident, mk3 (l 0) (l 1) (l 2)⟩ := by
  have hn : norm1M 3 3 m ≠ 0 := fun hn => h0 (norm1M_eq_zero m hn)
  rw [compute3_eq m ev h hn]
  generalize 1e-7 * norm1M 3 3 m = eps at *
  have hsm : ∀ k, (row3 m eps (l k)).2 < eps := fun k => row3_small m h eps k (hg k)
  rw [if_pos (Or.inl (hsm 0))]
  have : ∀ x y z : ℝ, x < eps → y < eps → z < eps →
      (sort3 (α := ℝ × Nat) Prod.fst ((x, 0), (y, 1), (z, 2))).2.1.1 < eps ∧
      (sort3 (α := ℝ × Nat) Prod.fst ((x, 0), (y, 1), (z, 2))).2.2.1 < eps := by
    intro x y z hx hy hz
    unfold sort3
    dsimp only
    split_ifs <;> exact ⟨by assumption, by assumption⟩
  obtain ⟨a, b⟩ := this _ _ _ (hsm 0) (hsm 1) (hsm 2)
  dsimp only
  rw [if_neg (not_le.2 a), if_neg (not_le.2 b)]
  rfl

theorem asM_ident : asM 3 3 ident = 1 := by
  ext i j; fin_cases i <;> fin_cases j <;> simp [ident]

/-- **C31** (all eigenvalues equal) a nonzero multiple of the identity is decomposed correctly. -/
theorem c31_scalar (m : Mat ℝ) (ev : Vec ℝ) (c : ℝ) (hc : c ≠ 0) (hm : asM 3 3 m = c • 1) :
    ∃ s, compute3 m ev = some s ∧ s.n = 3 ∧ IsEigen (asM 3 3 m) (asM 3 3 s.evectors) (asV 3 s.evalues) := by
  have h : IsEigen (asM 3 3 m) 1 (fun _ => c) := by
    refine ⟨by simp, ?_, fun _ _ _ => le_rfl⟩
    rw [hm]; ext i j; by_cases hij : i = j
    · subst hij; simp
    · simp [hij]
  have h0 : asM 3 3 m ≠ 0 := by
    rw [hm]; intro h
    have := congrFun (congrFun h 0) 0
    simp at this; exact hc this
  have hpos : 0 < norm1M 3 3 m := lt_of_le_of_ne (norm1M_nonneg m) (fun hn => h0 (norm1M_eq_zero m hn.symm))
  have hk := c31_all_small m ev h h0 (by
    intro k
    have : gap (fun _ : Fin 3 => c) k = 0 := by
      fin_cases k
      · exact (gap0 _).trans (by ring)
      · exact (gap1 _).trans (by ring)
      · exact (gap2 _).trans (by ring)
    rw [this, abs_zero, mul_zero]; positivity)
  refine ⟨_, hk, rfl, ?_⟩
  have : asV 3 (mk3 c c c) = fun _ => c := asV_mk3 (fun _ => c)
  rw [asM_ident]; show IsEigen _ _ (asV 3 (mk3 c c c)); rw [this]; exact h

/-- **C31** is false of the code: a non-diagonal matrix of small scale, `1e-9 * [[0,1,0],[1,0,0],[0,0,0]]`, gets the
standard basis as eigenvectors (the threshold is linear in the matrix, the vectors tested are quadratic). -/
theorem c31_tiny_matrix_wrong (ev : Vec ℝ) :
    let m : Mat ℝ := fun r c => if (r = 0 ∧ c = 1) ∨ (r = 1 ∧ c = 0) then 1e-9 else 0
    (asM 3 3 m)ᵀ = asM 3 3 m ∧ ∃ s, compute3 m ev = some s ∧ asM 3 3 s.evectors = 1 ∧
      ¬ IsEigen (asM 3 3 m) (asM 3 3 s.evectors) (asV 3 s.evalues) := by
  intro m
  have hm : (asM 3 3 m)ᵀ = asM 3 3 m := by ext i j; fin_cases i <;> fin_cases j <;> simp [m]
  refine ⟨hm, ?_⟩
  have hw : Real.sqrt 2 * Real.sqrt 2 = 2 := Real.mul_self_sqrt (by norm_num)
  have hw0 : Real.sqrt 2 ≠ 0 := by intro h; rw [h] at hw; norm_num at hw
  obtain ⟨a, ha⟩ : ∃ a : ℝ, a * a = 1 / 2 := ⟨1 / Real.sqrt 2, by rw [div_mul_div_comm, hw, one_mul]⟩
  have h : IsEigen (asM 3 3 m) !![a, -a, 0; 0, 0, 1; a, a, 0] ![-1e-9, 0, 1e-9] := by
    refine ⟨?_, ?_, ?_⟩
    · ext i j; fin_cases i <;> fin_cases j <;> simp [mul_apply, Fin.sum_univ_three] <;> linarith
    · ext i j; fin_cases i <;> fin_cases j <;> simp [mul_apply, Fin.sum_univ_three, m, diagonal] <;>
        first | (linear_combination 2e-9 * ha) | ring
    · intro i j hij; fin_cases i <;> fin_cases j <;> simp at hij ⊢ <;> norm_num
  have hn : norm1M 3 3 m = 1e-9 := by simp [norm1M, forN, m]; norm_num
  have h0 : asM 3 3 m ≠ 0 := by
    intro h
    have := congrFun (congrFun h 0) 1
    norm_num [m] at this
  have hk := c31_all_small m ev h h0 (by
    intro k
    rw [hn]
    fin_cases k
    · show 9 * |gap _ 0| < _
      rw [gap0]; simp; norm_num
    · show 9 * |gap _ 1| < _
      rw [gap1]; simp; norm_num
    · show 9 * |gap _ 2| < _
      rw [gap2]; simp; norm_num)
  refine ⟨_, hk, asM_ident, ?_⟩
  intro hE
  have := congrFun (congrFun hE.prod 0) 1
  rw [asM_ident] at this
  norm_num [m] at this

/-! ### exactly two equal eigenvalues -/

theorem dot3 (a b : Vec ℝ) : dot 3 a b = a 0 * b 0 + a 1 * b 1 + a 2 * b 2 := by
  simp [dot, forN]

/-- `unit` of a nonzero 3-vector -/
theorem unit3 (v u : Vec ℝ) (hv : v 0 * v 0 + v 1 * v 1 + v 2 * v 2 ≠ 0) :
    ∃ r k, Helpers.unit 3 v u = some r ∧ r 0 = k * v 0 ∧ r 1 = k * v 1 ∧ r 2 = k * v 2 ∧
      r 0 * r 0 + r 1 * r 1 + r 2 * r 2 = 1 := by
  have hp : 0 < v 0 * v 0 + v 1 * v 1 + v 2 * v 2 :=
    lt_of_le_of_ne (by nlinarith [mul_self_nonneg (v 0), mul_self_nonneg (v 1), mul_self_nonneg (v 2)]) (Ne.symm hv)
  have hq := Real.mul_self_sqrt hp.le
  have hne : Real.sqrt (dot 3 v v) ≠ 0 := by
    rw [dot3]; intro h; rw [h] at hq; linarith
  refine ⟨_, 1 / Real.sqrt (dot 3 v v), if_neg hne, ?_⟩
  have e : ∀ i, i < 3 → applyScalarV (· * ·) 3 v (1 / Real.sqrt (dot 3 v v)) u i = 1 / Real.sqrt (dot 3 v v) * v i := by
    intro i hi; rw [applyScalarV, forN_vecset, if_pos hi, mul_comm]
  rw [e 0 (by omega), e 1 (by omega), e 2 (by omega)]
  refine ⟨rfl, rfl, rfl, ?_⟩
  rw [dot3] at hne ⊢
  generalize Real.sqrt (v 0 * v 0 + v 1 * v 1 + v 2 * v 2) = q at *
  have : 1 / q * (1 / q) * (q * q) = 1 := by field_simp
  rw [hq] at this
  linear_combination this

theorem sq3 {x y z : ℝ} (h : x ^ 2 + y ^ 2 + z ^ 2 = 0) : x = 0 ∧ y = 0 ∧ z = 0 := by
  have hx := sq_nonneg x
  have hy := sq_nonneg y
  have hz := sq_nonneg z
  refine ⟨?_, ?_, ?_⟩
  · exact pow_eq_zero_iff (two_ne_zero) |>.1 (by linarith)
  · exact pow_eq_zero_iff (two_ne_zero) |>.1 (by linarith)
  · exact pow_eq_zero_iff (two_ne_zero) |>.1 (by linarith)

/-- a unit vector parallel to its cyclic permutation has equal components -/
theorem cyc_dot {a b c d : ℝ} (h1 : a * a + b * b + c * c = 1) (hd : d = b * a + c * b + a * c) (h0 : 1 - d * d = 0) :
    a = b ∧ b = c := by
  have hdd : (1 - d) * (1 + d) = 0 := by linear_combination h0
  rcases mul_eq_zero.1 hdd with h | h
  · obtain ⟨x, y, -⟩ := sq3 (x := a - b) (y := b - c) (z := c - a) (by linear_combination 2 * h1 + 2 * hd + 2 * h)
    exact ⟨by linarith, by linarith⟩
  · obtain ⟨x, y, z⟩ := sq3 (x := a + b) (y := b + c) (z := c + a) (by linear_combination 2 * h1 - 2 * hd + 2 * h)
    exact ⟨by linarith, by linarith⟩

/-- the two-small branch completes a unit vector to an orthonormal basis, unless its components are all equal -/
theorem twoSmall_spec (eig : Mat ℝ) (i0 i1 i2 : Nat) (h01 : i0 ≠ i1) (h02 : i0 ≠ i2) (h12 : i1 ≠ i2) (w : Fin 3 → ℝ) (t : ℝ)
    (hv : ∀ i : Fin 3, eig i2 i = t * w i) (hw : w 0 * w 0 + w 1 * w 1 + w 2 * w 2 = 1) (ht : t ≠ 0) :
    (¬ (w 0 = w 1 ∧ w 1 = w 2) → ∃ e, twoSmall eig i0 i1 i2 = some e ∧ (∀ i : Fin 3, e i2 i = t / |t| * w i) ∧
      e i0 0 * e i0 0 + e i0 1 * e i0 1 + e i0 2 * e i0 2 = 1 ∧
      e i1 0 * e i1 0 + e i1 1 * e i1 1 + e i1 2 * e i1 2 = 1 ∧
      e i0 0 * e i1 0 + e i0 1 * e i1 1 + e i0 2 * e i1 2 = 0 ∧
      e i0 0 * w 0 + e i0 1 * w 1 + e i0 2 * w 2 = 0 ∧ e i1 0 * w 0 + e i1 1 * w 1 + e i1 2 * w 2 = 0) ∧
    (w 0 = w 1 ∧ w 1 = w 2 → twoSmall eig i0 i1 i2 = none) := by
  obtain ⟨r, hr, er⟩ := normalize_mul _ _ t hv hw ht
  have hσ := sign_sq ht
  generalize t / |t| = σ at *
  have hs : normRow eig i2 = some (setRow eig i2 r) := by unfold normRow; rw [hr]; rfl
  have hrow : setRow eig i2 r i2 = r := if_pos rfl
  have r0 : r 0 = σ * w 0 := er 0
  have r1 : r 1 = σ * w 1 := er 1
  have r2 : r 2 = σ * w 2 := er 2
  have hr1 : r 0 * r 0 + r 1 * r 1 + r 2 * r 2 = 1 := by rw [r0, r1, r2]; linear_combination (σ * σ) * hw + hσ
  unfold twoSmall
  rw [hs, Option.bind_some]
  dsimp only
  rw [hrow, dot3]
  simp only [mk3, if_true, show ¬ ((1:Nat) = 0) by decide, show ¬ ((2:Nat) = 0) by decide, show ¬ ((2:Nat) = 1) by decide,
    if_false]
  set d := r 1 * r 0 + r 2 * r 1 + r 0 * r 2 with hd
  set x : Vec ℝ := mk3 (r 1 - r 0 * d) (r 2 - r 1 * d) (r 0 - r 2 * d) with hx
  have x0 : x 0 = r 1 - r 0 * d := rfl
  have x1 : x 1 = r 2 - r 1 * d := rfl
  have x2 : x 2 = r 0 - r 2 * d := rfl
  have hnorm : x 0 * x 0 + x 1 * x 1 + x 2 * x 2 = 1 - d * d := by
    rw [x0, x1, x2]; linear_combination (1 + d * d) * hr1 + 2 * d * hd
  have hperp : x 0 * r 0 + x 1 * r 1 + x 2 * r 2 = 0 := by
    rw [x0, x1, x2]; linear_combination (-d) * hr1 - hd
  constructor
  · intro hne
    have hd1 : 1 - d * d ≠ 0 := by
      intro h0
      have hσ0 : σ ≠ 0 := by rintro rfl; simp at hσ
      obtain ⟨z1, z2⟩ := cyc_dot hr1 hd h0
      rw [r0, r1] at z1; rw [r1, r2] at z2
      exact hne ⟨mul_left_cancel₀ hσ0 z1, mul_left_cancel₀ hσ0 z2⟩
    obtain ⟨v, k, hu, v0, v1, v2, vn⟩ := unit3 x (setRow eig i2 r i0) (by rw [hnorm]; exact hd1)
    have vperp : v 0 * r 0 + v 1 * r 1 + v 2 * r 2 = 0 := by rw [v0, v1, v2]; linear_combination k * hperp
    refine ⟨_, by rw [hu]; rfl, ?_, ?_⟩
    · intro i
      simp only [setRow, if_neg (Ne.symm h12), if_neg (Ne.symm h02), if_true]
      exact er i
    · have c0 : ∀ u, cross v r u 0 = v 1 * r 2 - v 2 * r 1 := fun u => by simp [cross, Vec.set]
      have c1 : ∀ u, cross v r u 1 = v 2 * r 0 - v 0 * r 2 := fun u => by simp [cross, Vec.set]
      have c2 : ∀ u, cross v r u 2 = v 0 * r 1 - v 1 * r 0 := fun u => by simp [cross, Vec.set]
      have hσw : ∀ a b c : ℝ, a * r 0 + b * r 1 + c * r 2 = 0 → a * w 0 + b * w 1 + c * w 2 = 0 := by
        intro a b c h
        rw [r0, r1, r2] at h
        linear_combination σ * h - (a * w 0 + b * w 1 + c * w 2) * hσ
      simp only [setRow, if_neg h01, if_true, if_false, c0, c1, c2]
      refine ⟨vn, ?_, ?_, hσw _ _ _ vperp, hσw _ _ _ (by ring)⟩
      · linear_combination (r 0 * r 0 + r 1 * r 1 + r 2 * r 2) * vn + hr1 - (v 0 * r 0 + v 1 * r 1 + v 2 * r 2) * vperp
      · ring
  · rintro ⟨e1, e2⟩
    have f1 : r 1 = r 0 := by rw [r1, r0, e1]
    have f2 : r 2 = r 0 := by rw [r2, r0, ← e2, ← e1]
    have hd' : d = 1 := by rw [hd, ← hr1, f1, f2]
    have hu : Helpers.unit 3 x (setRow eig i2 r i0) = none := by
      refine ((c42_unit 3 x _).2 ?_).1
      intro i hi
      match i, hi with
      | 0, _ => rw [x0, hd', f1]; ring
      | 1, _ => rw [x1, hd', f1, f2]; ring
      | 2, _ => rw [x2, hd', f2]; ring
    rw [hu]; rfl

theorem perp_eigen {A : Matrix (Fin 3) (Fin 3) ℝ} (h : IsEigen A V l) (k : Fin 3) (μ : ℝ) (hl : ∀ i, i ≠ k → l i = μ)
    (x : Fin 3 → ℝ) (hx : V k ⬝ᵥ x = 0) : A.mulVec x = μ • x := by
  have e : (diagonal l).mulVec (V.mulVec x) = μ • V.mulVec x := by
    funext i
    rw [mulVec_diagonal, Pi.smul_apply, smul_eq_mul]
    by_cases hi : i = k
    · subst hi
      rw [show V.mulVec x i = 0 from hx]; ring
    · rw [hl i hi]
  rw [← h.prod, ← mulVec_mulVec, ← mulVec_mulVec, e, mulVec_smul, mulVec_mulVec, mul_eq_one_comm.1 h.orth, one_mulVec]

theorem self_eigen {A : Matrix (Fin 3) (Fin 3) ℝ} (h : IsEigen A V l) (k : Fin 3) : A.mulVec (V k) = l k • V k := by
  have e1 : V.mulVec (V k) = Pi.single k 1 := by
    funext j
    have := congrFun (congrFun h.orth j) k
    rw [mul_apply, one_apply] at this
    rw [mulVec, dotProduct, Pi.single_apply]
    exact this
  rw [← h.prod, ← mulVec_mulVec, ← mulVec_mulVec, e1]
  funext i
  rw [mulVec, dotProduct, Finset.sum_eq_single k]
  · rw [mulVec_diagonal, Pi.single_eq_same, mul_one, transpose_apply, Pi.smul_apply, smul_eq_mul, mul_comm]
  · intro b _ hb; rw [mulVec_diagonal, Pi.single_eq_of_ne hb, mul_zero, mul_zero]
  · intro hk; exact absurd (Finset.mem_univ k) hk

/-- **C31** (exactly two equal eigenvalues, the third `l k` farther away than the threshold): the result is an orthonormal
eigendecomposition unless the eigenvector of `l k` is a multiple of `(1,1,1)`; in that case the code divides by zero
(`unit` of a zero vector). -/
theorem c31_double_partial (m : Mat ℝ) (ev : Vec ℝ) (h : IsEigen (asM 3 3 m) V l) (k : Fin 3)
    (hk : (k = 0 ∧ l 1 = l 2) ∨ (k = 2 ∧ l 0 = l 1))
    (hg : 4 * (1e-7 * norm1M 3 3 m) < (l 2 - l 0) * (l 2 - l 0)) :
    (¬ (V k 0 = V k 1 ∧ V k 1 = V k 2) → ∃ s, compute3 m ev = some s ∧ s.n = 3 ∧
      IsEigen (asM 3 3 m) (asM 3 3 s.evectors) (asV 3 s.evalues) ∧ asV 3 s.evalues = l) ∧
    (V k 0 = V k 1 ∧ V k 1 = V k 2 → compute3 m ev = none) := by
  have hN := norm1M_nonneg m
  have hn : norm1M 3 3 m ≠ 0 := by
    intro hn
    have := eig_zero h (norm1M_eq_zero m hn)
    rw [this, hn] at hg
    simp at hg
  have hpos : 0 < norm1M 3 3 m := lt_of_le_of_ne hN (Ne.symm hn)
  have heps : 0 < 1e-7 * norm1M 3 3 m := by positivity
  rw [compute3_eq m ev h hn]
  generalize 1e-7 * norm1M 3 3 m = eps at *
  have hsm : ∀ i, gap l i = 0 → (row3 m eps (l i)).2 = 0 := by
    intro i hi
    obtain ⟨t, -, hb, hc⟩ := row3_eq m h eps i
    have : t = 0 := by
      rcases hc with ⟨-, rfl⟩ | ⟨-, rfl⟩ | ⟨-, -, rfl⟩ <;> rw [hi, zero_mul]
    rw [hb, this, abs_zero, zero_mul]
  have hlg : gap l k = (l 2 - l 0) * (l 2 - l 0) → eps ≤ (row3 m eps (l k)).2 ∧
      ∃ t, t ≠ 0 ∧ ∀ i : Fin 3, (row3 m eps (l k)).1 i = t * V k i := by
    intro he
    have h1 : eps ≤ (row3 m eps (l k)).2 := row3_large m h eps k (by rw [he]; exact le_trans hg.le (le_abs_self _))
    refine ⟨h1, ?_⟩
    obtain ⟨t, ha, hb, -⟩ := row3_eq m h eps k
    refine ⟨t, ?_, ha⟩
    rintro rfl
    rw [hb, abs_zero, zero_mul] at h1; linarith
  have hu := row_unit h k
  rcases hk with ⟨rfl, hl⟩ | ⟨rfl, hl⟩
  · obtain ⟨g0, t, tn, te⟩ := hlg (by rw [gap0, hl])
    have n1 := hsm 1 (by rw [gap1, hl]; ring)
    have n2 := hsm 2 (by rw [gap2, hl]; ring)
    have gp : 0 < (row3 m eps (l 0)).2 := by linarith
    rw [n1, n2, if_pos (Or.inr (Or.inl heps))]
    have hsort : sort3 (α := ℝ × Nat) Prod.fst (((row3 m eps (l 0)).2, 0), ((0:ℝ), 1), ((0:ℝ), 2)) =
        ((0, 1), (0, 2), ((row3 m eps (l 0)).2, 0)) := by
      simp [sort3, gp]
    rw [hsort]
    dsimp only
    rw [if_neg (not_le.2 heps), if_pos g0]
    obtain ⟨sa, sb⟩ := twoSmall_spec (rawEig m eps l) 1 2 0 (by decide) (by decide) (by decide) (V 0) t te hu tn
    refine ⟨fun hne => ?_, fun heq => by rw [sb heq]; rfl⟩
    obtain ⟨e, e1, e2, e3, e4, e5, e6, e7⟩ := sa hne
    rw [e1]
    refine ⟨_, rfl, rfl, ?_, asV_mk3 l⟩
    rw [asV_mk3]
    have s0 := sign_sq tn
    generalize t / |t| = σ at *
    have z0 : e 0 0 = σ * V 0 0 := e2 0
    have z1 : e 0 1 = σ * V 0 1 := e2 1
    have z2 : e 0 2 = σ * V 0 2 := e2 2
    refine isEigen_of_rows ?_ ?_ h.asc
    · ext i j
      fin_cases i <;> fin_cases j <;> simp [mul_apply, Fin.sum_univ_three, z0, z1, z2]
      · linear_combination (σ * σ) * hu + s0
      · linear_combination σ * e6
      · linear_combination σ * e7
      · linear_combination σ * e6
      · linear_combination e3
      · linear_combination e5
      · linear_combination σ * e7
      · linear_combination e5
      · linear_combination e4
    · have hperp : ∀ i : Fin 3, i ≠ 0 → l i = l 2 := by
        intro i hi; fin_cases i
        · exact absurd rfl hi
        · exact hl
        · rfl
      intro i
      fin_cases i
      · have : asM 3 3 e 0 = σ • V 0 := by funext j; exact e2 j
        show (asM 3 3 m).mulVec (asM 3 3 e 0) = l 0 • asM 3 3 e 0
        rw [this, mulVec_smul, self_eigen h 0, smul_comm]
      · show (asM 3 3 m).mulVec (asM 3 3 e 1) = l 1 • asM 3 3 e 1
        rw [hl]; refine perp_eigen h 0 _ hperp _ ?_
        simp only [dotProduct, Fin.sum_univ_three, asM_apply]
        simp
        linear_combination e6
      · show (asM 3 3 m).mulVec (asM 3 3 e 2) = l 2 • asM 3 3 e 2
        refine perp_eigen h 0 _ hperp _ ?_
        simp only [dotProduct, Fin.sum_univ_three, asM_apply]
        simp
        linear_combination e7
  · obtain ⟨g0, t, tn, te⟩ := hlg (by rw [gap2, hl]; ring)
    have n0 := hsm 0 (by rw [gap0, hl]; ring)
    have n1 := hsm 1 (by rw [gap1, hl]; ring)
    have gp : 0 < (row3 m eps (l 2)).2 := by linarith
    rw [n0, n1, if_pos (Or.inl heps)]
    have hsort : sort3 (α := ℝ × Nat) Prod.fst (((0:ℝ), 0), ((0:ℝ), 1), ((row3 m eps (l 2)).2, 2)) =
        ((0, 0), (0, 1), ((row3 m eps (l 2)).2, 2)) := by
      simp [sort3, not_lt.2 gp.le]
    rw [hsort]
    dsimp only
    rw [if_neg (not_le.2 heps), if_pos g0]
    obtain ⟨sa, sb⟩ := twoSmall_spec (rawEig m eps l) 0 1 2 (by decide) (by decide) (by decide) (V 2) t te hu tn
    refine ⟨fun hne => ?_, fun heq => by rw [sb heq]; rfl⟩
    obtain ⟨e, e1, e2, e3, e4, e5, e6, e7⟩ := sa hne
    rw [e1]
    refine ⟨_, rfl, rfl, ?_, asV_mk3 l⟩
    rw [asV_mk3]
    have s0 := sign_sq tn
    generalize t / |t| = σ at *
    have z0 : e 2 0 = σ * V 2 0 := e2 0
    have z1 : e 2 1 = σ * V 2 1 := e2 1
    have z2 : e 2 2 = σ * V 2 2 := e2 2
    refine isEigen_of_rows ?_ ?_ h.asc
    · ext i j
      fin_cases i <;> fin_cases j <;> simp [mul_apply, Fin.sum_univ_three, z0, z1, z2]
      · linear_combination e3
      · linear_combination e5
      · linear_combination σ * e6
      · linear_combination e5
      · linear_combination e4
      · linear_combination σ * e7
      · linear_combination σ * e6
      · linear_combination σ * e7
      · linear_combination (σ * σ) * hu + s0
    · have hperp : ∀ i : Fin 3, i ≠ 2 → l i = l 0 := by
        intro i hi; fin_cases i
        · rfl
        · exact hl.symm
        · exact absurd rfl hi
      intro i
      fin_cases i
      · show (asM 3 3 m).mulVec (asM 3 3 e 0) = l 0 • asM 3 3 e 0
        refine perp_eigen h 2 _ hperp _ ?_
        simp only [dotProduct, Fin.sum_univ_three, asM_apply]
        simp
        linear_combination e6
      · show (asM 3 3 m).mulVec (asM 3 3 e 1) = l 1 • asM 3 3 e 1
        rw [← hl]; refine perp_eigen h 2 _ hperp _ ?_
        simp only [dotProduct, Fin.sum_univ_three, asM_apply]
        simp
        linear_combination e7
      · have : asM 3 3 e 2 = σ • V 2 := by funext j; exact e2 j
        show (asM 3 3 m).mulVec (asM 3 3 e 2) = l 2 • asM 3 3 e 2
        rw [this, mulVec_smul, self_eigen h 2, smul_comm]

/-- `diag(1, 1, 2)` meets the hypotheses of the first part -/
example : let m : Mat ℝ := fun r c => if r = c then (if r = 2 then 2 else 1) else 0
    IsEigen (asM 3 3 m) 1 ![1, 1, 2] ∧ 4 * (1e-7 * norm1M 3 3 m) < ((2:ℝ) - 1) * (2 - 1) ∧
    ¬ ((1 : Matrix (Fin 3) (Fin 3) ℝ) 2 0 = (1 : Matrix (Fin 3) (Fin 3) ℝ) 2 1 ∧
      (1 : Matrix (Fin 3) (Fin 3) ℝ) 2 1 = (1 : Matrix (Fin 3) (Fin 3) ℝ) 2 2) := by
  intro m
  have hn : norm1M 3 3 m = 2 := by
    simp [norm1M, forN, m]
  refine ⟨⟨by simp, ?_, ?_⟩, by rw [hn]; norm_num, by simp⟩
  · ext i j; fin_cases i <;> fin_cases j <;> simp [m]
  · intro i j hij; fin_cases i <;> fin_cases j <;> simp at hij ⊢

/-- **C31** is false of the code: the matrix of all ones (eigenvalues 0, 0, 3) makes it divide by zero. -/
theorem c31_all_ones_wrong (ev : Vec ℝ) : compute3 (fun _ _ => 1) ev = none := by
  have h2 : Real.sqrt 2 * Real.sqrt 2 = 2 := Real.mul_self_sqrt (by norm_num)
  have h3 : Real.sqrt 3 * Real.sqrt 3 = 3 := Real.mul_self_sqrt (by norm_num)
  have h6 : Real.sqrt 6 * Real.sqrt 6 = 6 := Real.mul_self_sqrt (by norm_num)
  obtain ⟨a, ha⟩ : ∃ a : ℝ, a * a = 1 / 2 := ⟨1 / Real.sqrt 2, by rw [div_mul_div_comm, h2, one_mul]⟩
  obtain ⟨b, hb⟩ : ∃ a : ℝ, a * a = 1 / 6 := ⟨1 / Real.sqrt 6, by rw [div_mul_div_comm, h6, one_mul]⟩
  obtain ⟨c, hc⟩ : ∃ a : ℝ, a * a = 1 / 3 := ⟨1 / Real.sqrt 3, by rw [div_mul_div_comm, h3, one_mul]⟩
  have h : IsEigen (asM 3 3 (fun _ _ => 1)) !![a, -a, 0; b, b, -(2 * b); c, c, c] ![0, 0, 3] := by
    refine ⟨?_, ?_, ?_⟩
    · ext i j; fin_cases i <;> fin_cases j <;> simp [mul_apply, Fin.sum_univ_three] <;> linarith
    · ext i j; fin_cases i <;> fin_cases j <;> simp [mul_apply, Fin.sum_univ_three, diagonal] <;> linarith
    · intro i j hij; fin_cases i <;> fin_cases j <;> simp at hij ⊢
  have hn : norm1M 3 3 (fun _ _ => (1:ℝ)) = 3 := by simp [norm1M, forN]; norm_num
  refine (c31_double_partial (fun _ _ => 1) ev h 2 (Or.inr ⟨rfl, by simp⟩) (by rw [hn]; simp; norm_num)).2 ?_
  simp

/-- **C31** is false of the code: when exactly one vector is small, the wrong rows are normalised (literal indices 1 and
2 instead of the sorted ones). For `diag(-x, 0, x)` with `x = 8e-8` the first eigenvector returned is not a unit vector. -/
theorem c31_one_small_wrong (ev : Vec ℝ) :
    let m : Mat ℝ := fun r c => if r = c then (if r = 0 then -8e-8 else if r = 2 then 8e-8 else 0) else 0
    ∃ s, compute3 m ev = some s ∧ ¬ IsEigen (asM 3 3 m) (asM 3 3 s.evectors) (asV 3 s.evalues) := by
  intro m
  have h : IsEigen (asM 3 3 m) 1 ![-8e-8, 0, 8e-8] := by
    refine ⟨by simp, ?_, ?_⟩
    · ext i j; fin_cases i <;> fin_cases j <;> simp [m]
    · intro i j hij; fin_cases i <;> fin_cases j <;> simp at hij ⊢ <;> norm_num
  have hn : norm1M 3 3 m = 8e-8 := by simp [norm1M, forN, m]; norm_num
  rw [compute3_eq m ev h (by rw [hn]; norm_num), hn]
  obtain ⟨t0, a0, b0, c0⟩ := row3_eq m h (1e-7 * 8e-8) 0
  obtain ⟨t1, a1, b1, c1⟩ := row3_eq m h (1e-7 * 8e-8) 1
  obtain ⟨t2, a2, b2, c2⟩ := row3_eq m h (1e-7 * 8e-8) 2
  rw [gap0] at c0; rw [gap1] at c1; rw [gap2] at c2
  have L0 : (![-8e-8, 0, 8e-8] : Fin 3 → ℝ) 0 = -8e-8 := rfl
  have L1 : (![-8e-8, 0, 8e-8] : Fin 3 → ℝ) 1 = 0 := rfl
  have L2 : (![-8e-8, 0, 8e-8] : Fin 3 → ℝ) 2 = 8e-8 := rfl
  have o01 : (1 : Matrix (Fin 3) (Fin 3) ℝ) 0 1 = 0 := rfl
  have o02 : (1 : Matrix (Fin 3) (Fin 3) ℝ) 0 2 = 0 := rfl
  have o10 : (1 : Matrix (Fin 3) (Fin 3) ℝ) 1 0 = 0 := rfl
  have o12 : (1 : Matrix (Fin 3) (Fin 3) ℝ) 1 2 = 0 := rfl
  have o20 : (1 : Matrix (Fin 3) (Fin 3) ℝ) 2 0 = 0 := rfl
  have o21 : (1 : Matrix (Fin 3) (Fin 3) ℝ) 2 1 = 0 := rfl
  rw [L0, L1, L2] at c0 c1 c2
  rw [o01, o02, Matrix.one_apply_eq, abs_one, abs_zero] at c0 b0
  rw [o10, o12, Matrix.one_apply_eq, abs_one, abs_zero] at c1 b1
  rw [o20, o21, Matrix.one_apply_eq, abs_one, abs_zero] at c2 b2
  have T0 : t0 = 1.28e-14 := by
    rcases c0 with ⟨x, y⟩ | ⟨x, y⟩ | ⟨-, -, y⟩
    · norm_num at y; rw [y] at x; norm_num at x
    · norm_num at y; rw [y] at x; norm_num at x
    · rw [y]; norm_num
  have T1 : t1 = -6.4e-15 := by
    rcases c1 with ⟨x, y⟩ | ⟨x, y⟩ | ⟨-, -, y⟩
    · norm_num at y; rw [y] at x; norm_num at x
    · norm_num at y; rw [y] at x; norm_num at x
    · rw [y]; norm_num
  have T2 : t2 = 1.28e-14 := by
    rcases c2 with ⟨x, y⟩ | ⟨x, y⟩ | ⟨-, -, y⟩ <;> rw [y] <;> norm_num
  have N0 : (row3 m (1e-7 * 8e-8) ((![-8e-8, 0, 8e-8] : Fin 3 → ℝ) 0)).2 = 1.28e-14 := by rw [b0, T0]; norm_num
  have N1 : (row3 m (1e-7 * 8e-8) ((![-8e-8, 0, 8e-8] : Fin 3 → ℝ) 1)).2 = 6.4e-15 := by rw [b1, T1]; norm_num [abs]
  have N2 : (row3 m (1e-7 * 8e-8) ((![-8e-8, 0, 8e-8] : Fin 3 → ℝ) 2)).2 = 1.28e-14 := by rw [b2, T2]; norm_num
  have hsort : sort3 (α := ℝ × Nat) Prod.fst (((1.28e-14:ℝ), 0), ((6.4e-15:ℝ), 1), ((1.28e-14:ℝ), 2)) =
      ((6.4e-15, 1), (1.28e-14, 0), (1.28e-14, 2)) := by
    unfold sort3
    dsimp only
    rw [if_pos (show (1.28e-14:ℝ) > 6.4e-15 by norm_num)]
    dsimp only
    rw [if_neg (show ¬ (1.28e-14:ℝ) > 1.28e-14 by norm_num)]
    dsimp only
    rw [if_neg (show ¬ (6.4e-15:ℝ) > 1.28e-14 by norm_num)]
  rw [N0, N1, N2, hsort, if_pos (Or.inr (Or.inl (by norm_num)))]
  dsimp only
  rw [if_pos (show (1.28e-14:ℝ) ≥ 1e-7 * 8e-8 by norm_num)]
  set E := rawEig m (1e-7 * 8e-8) ![-8e-8, 0, 8e-8] with hE
  have u1 : (1 : Matrix (Fin 3) (Fin 3) ℝ) 1 0 * (1 : Matrix (Fin 3) (Fin 3) ℝ) 1 0 + (1 : Matrix (Fin 3) (Fin 3) ℝ) 1 1 *
      (1 : Matrix (Fin 3) (Fin 3) ℝ) 1 1 + (1 : Matrix (Fin 3) (Fin 3) ℝ) 1 2 * (1 : Matrix (Fin 3) (Fin 3) ℝ) 1 2 = 1 := by
    simp
  have u2 : (1 : Matrix (Fin 3) (Fin 3) ℝ) 2 0 * (1 : Matrix (Fin 3) (Fin 3) ℝ) 2 0 + (1 : Matrix (Fin 3) (Fin 3) ℝ) 2 1 *
      (1 : Matrix (Fin 3) (Fin 3) ℝ) 2 1 + (1 : Matrix (Fin 3) (Fin 3) ℝ) 2 2 * (1 : Matrix (Fin 3) (Fin 3) ℝ) 2 2 = 1 := by
    simp
  obtain ⟨p, hp, -⟩ := normalize_mul (E 1) ((1 : Matrix (Fin 3) (Fin 3) ℝ) 1) t1 a1 u1 (by rw [T1]; norm_num)
  obtain ⟨q, hq, -⟩ := normalize_mul (E 2) ((1 : Matrix (Fin 3) (Fin 3) ℝ) 2) t2 a2 u2 (by rw [T2]; norm_num)
  have hn1 : normRow E 1 = some (setRow E 1 p) := by unfold normRow; rw [hp]; rfl
  have hn2 : normRow (setRow E 1 p) 2 = some (setRow (setRow E 1 p) 2 q) := by
    unfold normRow
    rw [show setRow E 1 p 2 = E 2 from if_neg (by decide), hq]; rfl
  unfold oneSmall
  rw [hn1, Option.bind_some, hn2]
  refine ⟨_, rfl, fun hh => ?_⟩
  have h00 := congrFun (congrFun hh.orth 0) 0
  have e0 : E 0 0 = 1.28e-14 := by
    have := a0 0
    rw [T0, Matrix.one_apply_eq, mul_one] at this
    exact this
  have e1 : E 0 1 = 0 := by
    have := a0 1
    rw [o01, mul_zero] at this
    exact this
  have e2 : E 0 2 = 0 := by
    have := a0 2
    rw [o02, mul_zero] at this
    exact this
  rw [mul_apply, Fin.sum_univ_three] at h00
  simp [setRow, e0, e1, e2] at h00
  norm_num at h00

end TooN.SymEigen
