import Verif.Props.FloatCoerce
/-!
# C69 (continued): SO2, agreement with the exact model, and a worked case
-/
set_option linter.unusedSectionVars false
namespace TooN.FlRot
open Finset TooN.Lie
open scoped Matrix
variable {ρ : Rounding}

/-- **C69** `SO2::coerce` likewise -/
theorem c69_coerce2 (hu : ρ.u ≤ 1 / 10000) (m : Mat (Fl ρ)) (w : Vec (Fl ρ)) (Q : Matrix (Fin 2) (Fin 2) ℝ) (hQ : IsRot Q) (ε : ℝ)
    (hε : ε ≤ 1 / 100) (hm : frob (asM 2 2 (rmat m) - Q) ≤ ε) :
    ∃ C, coerce2Fl m w = some C ∧
      (∀ i j, i < 2 → j < 2 → |∑ k ∈ range 2, (C i k).val * (C j k).val - if i = j then 1 else 0| ≤ 40 * ρ.u) ∧
      frob (asM 2 2 (rmat C) - Q) ≤ 12 * ε + 50 * ρ.u := by
  have h0 := ρ.u_nonneg
  have hε0 := le_trans (frob_nonneg _) hm
  have hrow : ∀ i : Fin 2, eucl (asV 2 (rvec (m i)) - Q i) ≤ ε := fun i =>
    le_trans (row_le_frob (asM 2 2 (rmat m) - Q) i) hm
  have hun := rows_unit hQ.orth
  have hor := rows_orth hQ.orth
  obtain ⟨r0, e0, R0, -⟩ := row_of (by norm_num) hu (m 0) w (Q 0) (hun 0) ε (by linarith) (hrow 0)
  obtain ⟨w1a, w1b, w1c, -⟩ := reject_of (by norm_num) hu r0 (m 1) w (Q 0) (Q 1) (hun 0) (hun 1) (hor 0 1) _ ε (by linarith)
    R0 (hrow 1)
  have w1d : eucl (asV 2 (rvec (reject 2 r0 (m 1) w)) - Q 1) ≤ 5 * ε + 18 * ρ.u := by nlinarith
  obtain ⟨r1, e1, R1, p1⟩ := row_of (by norm_num) hu (reject 2 r0 (m 1) w) w (Q 1) (hun 1) _ (by linarith) w1d
  have d01 : |asV 2 (rvec r0) ⬝ᵥ asV 2 (rvec r1)| ≤ 40 * ρ.u := by
    refine le_trans (p1 _ (28 * ρ.u) R0.le (by nlinarith)) ?_
    have : 28 * ρ.u / (1 - (5 * ε + 18 * ρ.u)) ≤ 32 * ρ.u := by
      rw [div_le_iff₀ (by linarith)]; nlinarith
    linarith
  refine ⟨setRow (setRow m 0 r0) 1 r1, ?_, ?_, ?_⟩
  · have a0 : setRow m 0 r0 0 = r0 := rfl
    have a1 : setRow m 0 r0 1 = m 1 := rfl
    have a2 : ∀ (m : Mat (Fl ρ)) v, setRow m 1 v 1 = v := fun m v => rfl
    have a3 : ∀ (m : Mat (Fl ρ)) v v', setRow (setRow m 1 v) 1 v' = setRow m 1 v' := fun m v v' => by
      funext r; unfold setRow; split_ifs <;> rfl
    unfold coerce2Fl
    rw [e0, Option.bind_some]
    dsimp only
    simp only [a0, a1, a2, a3]
    rw [e1, Option.map_some]
  · have l0 := R0.len
    have l1 := R1.len
    intro i j hi hj
    have dd : ∀ a b : Vec (Fl ρ), ∑ k ∈ range 2, (a k).val * (b k).val = asV 2 (rvec a) ⬝ᵥ asV 2 (rvec b) := by
      intro a b; rw [Finset.sum_range]; rfl
    rw [dd]
    have c0 : setRow (setRow m 0 r0) 1 r1 0 = r0 := rfl
    have c1 : setRow (setRow m 0 r0) 1 r1 1 = r1 := rfl
    generalize setRow (setRow m 0 r0) 1 r1 = C at *
    subst c0 c1
    have hi' : i = 0 ∨ i = 1 := by omega
    have hj' : j = 0 ∨ j = 1 := by omega
    rcases hi' with rfl | rfl <;> rcases hj' with rfl | rfl
    · rw [if_pos rfl]; linarith
    · rw [if_neg (by norm_num), sub_zero]; exact d01
    · rw [if_neg (by norm_num), sub_zero, dotProduct_comm]; exact d01
    · rw [if_pos rfl]; linarith
  · refine le_trans (frob_le_rows _) ?_
    rw [Fin.sum_univ_two]
    have k0 := R0.near
    have k1 := R1.near
    change eucl (asV 2 (rvec r0) - Q 0) + eucl (asV 2 (rvec r1) - Q 1) ≤ _
    linarith

/-- a real matrix stored in the element type, element by element -/
noncomputable def store (ρ : Rounding) {n : ℕ} (R : Matrix (Fin n) (Fin n) ℝ) : Mat (Fl ρ) := fun i j =>
  if h : i < n ∧ j < n then Fl.of ρ (R ⟨i, h.1⟩ ⟨j, h.2⟩) else 0

/-- storing a rotation puts it within `√n u` of itself -/
theorem store_err {n : ℕ} (R : Matrix (Fin n) (Fin n) ℝ) (hR : IsRot R) :
    frob (asM n n (rmat (store ρ R)) - R) ≤ ρ.u * Real.sqrt n := by
  rw [← frob_orth hR.orth, ← frob_smul _ ρ.u_nonneg]
  refine frob_mono fun i j => ?_
  have := ρ.err (R i j)
  rw [Matrix.smul_apply, smul_eq_mul, abs_mul, abs_of_nonneg ρ.u_nonneg]
  have e : asM n n (rmat (store ρ R)) i j = ρ.rnd (R i j) := by
    simp only [asM_apply, rmat, store]
    rw [dif_pos ⟨i.2, j.2⟩]; rfl
  rw [Matrix.sub_apply, e]
  exact this

/-- **C69** the whole story: multiply up to a million stored rotations in double precision without ever calling `coerce()`: the
result is within `3·10⁻⁹` of the exact product; one `coerce()` then makes it orthonormal to `10⁻¹⁴` -/
theorem c69_million (R : ℕ → Matrix (Fin 3) (Fin 3) ℝ) (W : ℕ → Mat (Fl Rounding.double)) (w : Vec (Fl Rounding.double)) (k : ℕ)
    (hk : k < 1000000) (hR : ∀ i, i ≤ k → IsRot (R i)) :
    frob (asM 3 3 (rmat (soChain 3 (fun i => store Rounding.double (R i)) W k)) - chain R k) ≤ 3 / 10 ^ 9 ∧
    ∃ C, coerceFl (soChain 3 (fun i => store Rounding.double (R i)) W k) w = some (.ok C) ∧
      ∀ i j, i < 3 → j < 3 → |∑ l ∈ range 3, (C i l).val * (C j l).val - if i = j then 1 else 0| ≤ 1 / 10 ^ 14 := by
  have hu : Rounding.double.u = 1 / 2 ^ 53 := Rounding.double_u
  have hn : ((3 : ℕ) : ℝ) * Rounding.double.u < 1 := by rw [hu]; norm_num
  have hs : Real.sqrt ((3 : ℕ) : ℝ) ≤ 2 := by
    rw [Real.sqrt_le_left (by norm_num)]; norm_num
  have h1 := c69_drift_linear hn (fun i => store Rounding.double (R i)) W R k (2 / 2 ^ 53) (12 / 2 ^ 53) hR
    (fun i hi => le_trans (store_err (R i) (hR i hi)) (by
      have := mul_le_mul_of_nonneg_left hs Rounding.double.u_nonneg
      refine le_trans this ?_
      rw [hu]; norm_num))
    (by
      have := gam_le (u := Rounding.double.u) Rounding.double.u_nonneg (by rw [hu]; norm_num) 3 (by norm_num)
      rw [hu] at this ⊢
      push_cast at this ⊢
      nlinarith)
    (by
      have : (k:ℝ) + 1 ≤ 1000000 := by exact_mod_cast hk
      nlinarith)
  have hk' : (k:ℝ) + 1 ≤ 1000000 := by exact_mod_cast hk
  have h2 : ((k:ℝ) + 1) * (12 / 2 ^ 53) / (1 - (k + 1) * (12 / 2 ^ 53)) ≤ 3 / 10 ^ 9 := by
    rw [div_le_iff₀ (by nlinarith)]; nlinarith
  have h3 := le_trans h1 h2
  refine ⟨h3, ?_⟩
  obtain ⟨C, e, d, -⟩ := c69_coerce (ρ := Rounding.double) (by rw [hu]; norm_num) _ w (chain R k) (chain_isRot R k hR) (3 / 10 ^ 9)
    (by norm_num) h3
  refine ⟨C, e, fun i j hi hj => le_trans (d i j hi hj) ?_⟩
  rw [hu]; norm_num

/-- the hypotheses are met by, for instance, the rotations about one axis -/
example (θ : ℕ → ℝ) (k : ℕ) (i : ℕ) (_ : i ≤ k) :
    IsRot !![Real.cos (θ i), -Real.sin (θ i), 0; Real.sin (θ i), Real.cos (θ i), 0; 0, 0, 1] := by
  have h := Real.sin_sq_add_cos_sq (θ i)
  generalize Real.sin (θ i) = s at *
  generalize Real.cos (θ i) = c at *
  refine ⟨?_, ?_⟩
  · ext a b
    fin_cases a <;> fin_cases b <;> simp [Matrix.mul_apply, Fin.sum_univ_three] <;> nlinarith
  · simp [Matrix.det_fin_three]; nlinarith

/-! ## exact arithmetic -/

section exact
local notation "E" => Rounding.exact

theorem dot_exact (n : ℕ) (a b : Vec (Fl E)) : (Ops.dot n a b).val = asV n (rvec a) ⬝ᵥ asV n (rvec b) := by
  have h := c61_dot (ρ := E) n (by simp [Rounding.exact]) a b
  have g : gam (Rounding.exact).u n = 0 := by simp [gam, Rounding.exact]
  rw [g, zero_mul] at h
  have := abs_nonpos_iff.1 h
  rw [sub_eq_zero.1 this, Finset.sum_range]; rfl

theorem unit_exact (n : ℕ) (v w : Vec (Fl E)) : (unitFl n v w).map (fun r => asV n (rvec r)) = unitV (asV n (rvec v)) := by
  have e : (Fl.sqrt (Ops.dot n v v)).val = Real.sqrt (asV n (rvec v) ⬝ᵥ asV n (rvec v)) := by
    rw [Fl.val_sqrt, dot_exact]; rfl
  unfold unitFl unitV
  by_cases h : Real.sqrt (asV n (rvec v) ⬝ᵥ asV n (rvec v)) = 0
  · rw [if_pos ((Fl.eq_zero_iff _).2 (e.trans h)), if_pos h]; rfl
  · rw [if_neg (fun k => h (e.symm.trans ((Fl.eq_zero_iff _).1 k))), if_neg h, Option.map_some]
    congr 1
    funext i
    have e2 : asV n (rvec (Ops.applyScalarV (· * ·) n v (1 / Fl.sqrt (Ops.dot n v v)) w)) i =
        (v i).val * (1 / (Fl.sqrt (Ops.dot n v v)).val) := by
      simp only [asV_apply, rvec]
      rw [Ops.applyScalarV, forN_vecset, if_pos i.2]; rfl
    rw [e2, e, Pi.smul_apply, smul_eq_mul, mul_comm]; rfl

theorem reject_exact (n : ℕ) (r v w : Vec (Fl E)) :
    asV n (rvec (reject n r v w)) = asV n (rvec v) - (asV n (rvec r) ⬝ᵥ asV n (rvec v)) • asV n (rvec r) := by
  funext i
  have e3 : reject n r v w i = v i - r i * Ops.dot n r v := by
    unfold reject
    rw [forN_vecupd _ (fun i x => x - _), if_pos i.2, Ops.applyScalarV, forN_vecset, if_pos i.2]
  have e4 : asV n (rvec (reject n r v w)) i = (v i).val - (r i).val * (Ops.dot n r v).val := by
    simp only [asV_apply, rvec]; rw [e3]; rfl
  rw [e4, dot_exact, Pi.sub_apply, Pi.smul_apply, smul_eq_mul, mul_comm]; rfl

theorem cross_exact (a b w : Vec (Fl E)) : asV 3 (rvec (Ops.cross a b w)) = crossV (asV 3 (rvec a)) (asV 3 (rvec b)) := by
  funext i
  fin_cases i <;> rfl

/-- **C69** in exact arithmetic the model of `coerce()` is the one of `Model/SO.lean` -/
theorem c69_coerce_exact (m : Mat (Fl E)) (w : Vec (Fl E)) :
    (coerceFl m w).map (fun o => match o with | .ok C => Outcome.ok (asM 3 3 (rmat C)) | .abort => .abort | .ub => .ub) =
      coerce3 (asM 3 3 (rmat m)) := by
  have row : ∀ (m : Mat (Fl E)) (i : Fin 3), asM 3 3 (rmat m) i = asV 3 (rvec (m i)) := fun m i => rfl
  have bs : ∀ {α β γ : Type} (x : Option α) (f : α → Option β) (g : β → γ), (x.bind f).map g = x.bind fun a => (f a).map g := by
    intro α β γ x f g; cases x <;> rfl
  have mb : ∀ {α β γ : Type} (x : Option α) (g : α → β) (f : β → Option γ), (x.map g).bind f = x.bind fun a => f (g a) := by
    intro α β γ x f g; cases x <;> rfl
  unfold coerce3
  rw [row, ← unit_exact 3 (m ((0 : Fin 3) : ℕ)) w, mb]
  unfold coerceFl
  rw [bs]
  congr 1
  funext r0
  dsimp only
  rw [row, row, bs]
  have s1 : setRow m 0 r0 0 = r0 := rfl
  have s2 : setRow m 0 r0 1 = m 1 := rfl
  have s3 : ∀ (m : Mat (Fl E)) v, setRow m 1 v 1 = v := fun m v => rfl
  have s4 : ∀ (m : Mat (Fl E)) v v', setRow (setRow m 1 v) 1 v' = setRow m 1 v' := fun m v v' => by
    funext r; unfold setRow; split_ifs <;> rfl
  have s5 : ∀ (m : Mat (Fl E)) v v', setRow (setRow m 2 v) 2 v' = setRow m 2 v' := fun m v v' => by
    funext r; unfold setRow; split_ifs <;> rfl
  have b0 : ∀ (m : Mat (Fl E)) v, setRow m 1 v 0 = m 0 := fun m v => rfl
  have b1 : ∀ (m : Mat (Fl E)) v, setRow m 2 v 0 = m 0 := fun m v => rfl
  have b2 : ∀ (m : Mat (Fl E)) v, setRow m 2 v 1 = m 1 := fun m v => rfl
  have b3 : ∀ (m : Mat (Fl E)) v, setRow m 0 v 2 = m 2 := fun m v => rfl
  have b4 : ∀ (m : Mat (Fl E)) v, setRow m 1 v 2 = m 2 := fun m v => rfl
  have b5 : ∀ (m : Mat (Fl E)) v, setRow m 2 v 2 = v := fun m v => rfl
  simp only [s1, s2, s3, s4, s5, b0, b1, b2, b3, b4, b5]
  rw [show asV 3 (rvec (m ((1 : Fin 3) : ℕ))) - (asV 3 (rvec r0) ⬝ᵥ asV 3 (rvec (m ((1 : Fin 3) : ℕ)))) • asV 3 (rvec r0) =
    asV 3 (rvec (reject 3 r0 (m 1) w)) from (reject_exact 3 r0 (m 1) w).symm, ← unit_exact 3 (reject 3 r0 (m 1) w) w, mb]
  congr 1
  funext r1
  rw [show asV 3 (rvec (m ((2 : Fin 3) : ℕ))) - (asV 3 (rvec r0) ⬝ᵥ asV 3 (rvec (m ((2 : Fin 3) : ℕ)))) • asV 3 (rvec r0) =
    asV 3 (rvec (reject 3 r0 (m 2) w)) from (reject_exact 3 r0 (m 2) w).symm,
    ← reject_exact 3 r1 (reject 3 r0 (m 2) w) w, ← unit_exact 3 (reject 3 r1 (reject 3 r0 (m 2) w) w) w, Option.map_map, Option.map_map]
  congr 1
  funext r2
  simp only [Function.comp]
  have ec : (0 : Fl E) < Ops.dot 3 (Ops.cross r0 r1 w) r2 ↔
      crossV (asV 3 (rvec r0)) (asV 3 (rvec r1)) ⬝ᵥ asV 3 (rvec r2) > 0 := by
    rw [Fl.lt_def, Fl.val_zero, dot_exact, cross_exact]
  by_cases h : (0 : Fl E) < Ops.dot 3 (Ops.cross r0 r1 w) r2
  · rw [if_pos h, if_pos (ec.1 h)]
    dsimp only
    congr 1
    ext i j
    fin_cases i <;> rfl
  · rw [if_neg h, if_neg (fun k => h (ec.2 k))]

end exact

end TooN.FlRot
