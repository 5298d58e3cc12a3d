import Verif.Props.FloatFromTo
/-!
# C90, continued: the branches of `SO3(a, b)`, and nearly parallel vectors
-/
set_option linter.unusedSectionVars false
namespace TooN.FlRot
open Finset Lie Matrix
variable {ρ : Rounding}

theorem dot_self_zero (hu : ρ.u ≤ 1 / 10000) (v : Vec (Fl ρ)) : Ops.dot 3 v v = 0 ↔ eucl (asV 3 (rvec v)) = 0 := by
  have h0 := ρ.u_nonneg
  have h := c61_dot (ρ := ρ) 3 (by push_cast; linarith) v v
  have e : ∑ i ∈ range 3, (v i).val * (v i).val = eucl (asV 3 (rvec v)) ^ 2 := by
    rw [eucl_sq, Finset.sum_range]; rfl
  have e' : ∑ i ∈ range 3, |(v i).val * (v i).val| = eucl (asV 3 (rvec v)) ^ 2 := by
    rw [← e]; exact sum_congr rfl fun i _ => abs_of_nonneg (mul_self_nonneg _)
  rw [e, e'] at h
  have g := gam_le h0 hu 3 (by norm_num)
  push_cast at g
  have hE := sq_nonneg (eucl (asV 3 (rvec v)))
  rw [abs_le] at h
  constructor
  · intro hz
    rw [hz, Fl.val_zero] at h
    have : eucl (asV 3 (rvec v)) ^ 2 = 0 := by
      have : gam ρ.u 3 ≤ 1 / 2 := by norm_num at g ⊢; linarith
      push_cast at h
      nlinarith [h.1]
    exact pow_eq_zero_iff (two_ne_zero) |>.1 this
  · intro hz
    rw [hz] at h
    apply Fl.ext
    rw [Fl.val_zero]
    norm_num at h
    linarith

/-- the two directions, scaled by each other's length -/
theorem eucl_cross_scaled (A B : Lie.V 3) (σ : ℝ) (hσ : σ ^ 2 = 1) :
    eucl (eucl B • A - (σ * eucl A) • B) ^ 2 = 2 * (eucl A * eucl B) ^ 2 - 2 * (eucl A * eucl B) * (σ * (A ⬝ᵥ B)) := by
  have ha := eucl_sum A
  have hb := eucl_sum B
  generalize eucl A = α at *
  generalize eucl B = β at *
  rw [eucl_sum]
  simp only [Fin.sum_univ_three, dotProduct, Pi.sub_apply, Pi.smul_apply, smul_eq_mul] at *
  linear_combination (-β ^ 2) * ha - σ ^ 2 * α ^ 2 * hb + α ^ 2 * β ^ 2 * hσ

/-- **C90** the branches of `SO3(a, b)`.  It never divides by zero.  The assertion fails only for vectors in opposite directions, to `4.1 u`;
and if the computed `a × b` vanishes otherwise, the result is exactly the identity and the directions agree to `4.1 u` -/
theorem c90_branches (hu : ρ.u ≤ 1 / 10000) (a b w : Vec (Fl ρ)) (M0 M1 W : Mat (Fl ρ)) (A B : Lie.V 3)
    (hA : A = asV 3 (rvec a)) (hB : B = asV 3 (rvec b)) :
    (so3FromToFl a b w M0 M1 W = some .abort ∧ eucl (eucl B • A + eucl A • B) ≤ 4.1 * ρ.u * (eucl A * eucl B)) ∨
    (so3FromToFl a b w M0 M1 W = some (.ok fun r c => if r = c then 1 else 0) ∧
      eucl (eucl B • A - eucl A • B) ≤ 4.1 * ρ.u * (eucl A * eucl B)) ∨
    (asV 3 (rvec (Ops.cross a b w)) ≠ 0 ∧ ∃ m, so3FromToFl a b w M0 M1 W = some (.ok m)) := by
  have h0 := ρ.u_nonneg
  have hP : 0 ≤ eucl A * eucl B := mul_nonneg (eucl_nonneg _) (eucl_nonneg _)
  by_cases hd : Ops.dot 3 (Ops.cross a b w) (Ops.cross a b w) = 0
  · have hz := (dot_self_zero hu _).1 hd
    have kc := cross_near hu a b w
    rw [← hA, ← hB] at kc
    have kx : eucl (crossV A B) ≤ 2.84 * ρ.u * (eucl A * eucl B) := by
      have := eucl_le_of _ _ (d := 2.84 * ρ.u * (eucl A * eucl B)) (by rw [eucl_sub_comm]; exact kc)
      rw [hz, zero_add] at this; exact this
    have lg := lagrange A B
    have kx2 := pow_le_pow_left₀ (eucl_nonneg _) kx 2
    have dd := c61_dot (ρ := ρ) 3 (by push_cast; linarith) a b
    have g := gam_le h0 hu 3 (by norm_num)
    have g0 : 0 ≤ gam ρ.u 3 := gam_nonneg h0 ρ.u_lt_one (by push_cast; linarith)
    have e1 : ∑ i ∈ range 3, (a i).val * (b i).val = A ⬝ᵥ B := by rw [Finset.sum_range, hA, hB]; rfl
    have e2 : ∑ i ∈ range 3, |(a i).val * (b i).val| ≤ eucl A * eucl B := by
      have := abs_dot_le (fun i => |A i|) (fun i => |B i|)
      rw [eucl_abs, eucl_abs] at this
      refine le_trans (le_of_eq ?_) ((le_abs_self _).trans this)
      rw [Finset.sum_range, hA, hB]
      exact sum_congr rfl fun i _ => abs_mul _ _
    rw [e1] at dd
    have dd' : |(Ops.dot 3 a b).val - A ⬝ᵥ B| ≤ 3.01 * ρ.u * (eucl A * eucl B) := by
      refine dd.trans (mul_le_mul ?_ e2 (sum_nonneg fun i _ => abs_nonneg _) (by positivity))
      push_cast at g; norm_num at g ⊢; linarith
    -- the directions are equal or opposite
    have key : ∀ σ : ℝ, σ ^ 2 = 1 → -(3.01 * ρ.u * (eucl A * eucl B)) ≤ σ * (A ⬝ᵥ B) →
        eucl (eucl B • A - (σ * eucl A) • B) ≤ 4.1 * ρ.u * (eucl A * eucl B) := by
      intro σ hσ hd
      apply le_of_sq (by positivity)
      rw [eucl_cross_scaled A B σ hσ]
      have hD : (σ * (A ⬝ᵥ B)) ^ 2 = (A ⬝ᵥ B) ^ 2 := by rw [mul_pow, hσ, one_mul]
      rw [lg, mul_pow, mul_pow, mul_pow, ← hD] at kx2
      generalize σ * (A ⬝ᵥ B) = d at *
      rw [show eucl A ^ 2 * eucl B ^ 2 = (eucl A * eucl B) ^ 2 by ring] at kx2
      generalize eucl A * eucl B = P at *
      rcases hP.lt_or_eq with hp | hp
      · have hu2 : ρ.u ^ 2 ≤ 1 / 10 ^ 8 := by
          have := pow_le_pow_left₀ h0 hu 2; norm_num at this ⊢; linarith
        have hP2 : 0 < P ^ 2 := by positivity
        have hd0 : 0 < d := by
          by_contra hc
          push Not at hc
          have h3 : d ^ 2 ≤ (3.01 * ρ.u * P) ^ 2 := by
            rw [← neg_sq]; exact pow_le_pow_left₀ (by linarith) (by linarith) 2
          rw [mul_pow, mul_pow] at h3
          norm_num at h3 kx2
          nlinarith
        rw [mul_pow, mul_pow]
        rcases le_total d P with hd1 | hd1
        · have h3 : (P - d) * P ≤ (P - d) * (P + d) := mul_le_mul_of_nonneg_left (by linarith) (by linarith)
          norm_num at kx2 ⊢
          nlinarith [mul_nonneg (sq_nonneg ρ.u) hP2.le]
        · have h3 : 0 ≤ P * (d - P) := mul_nonneg hp.le (by linarith)
          have := mul_nonneg (sq_nonneg ρ.u) hP2.le
          norm_num
          nlinarith
      · rw [← hp]; norm_num
    rw [abs_le] at dd'
    by_cases hs : Ops.dot 3 a b ≥ 0
    · refine Or.inr (Or.inl ⟨?_, ?_⟩)
      · unfold so3FromToFl; dsimp only; rw [if_pos hd, if_pos hs]
      · have := key 1 (by norm_num) (by
          have h : 0 ≤ (Ops.dot 3 a b).val := hs
          linarith [dd'.2])
        rwa [one_mul] at this
    · refine Or.inl ⟨?_, ?_⟩
      · unfold so3FromToFl; dsimp only; rw [if_pos hd, if_neg hs]
      · have := key (-1) (by norm_num) (by
          have h : (Ops.dot 3 a b).val < 0 := not_le.1 hs
          linarith [dd'.1])
        rwa [neg_one_mul, neg_smul, sub_neg_eq_add] at this
  · refine Or.inr (Or.inr ⟨?_, ?_⟩)
    · intro h
      apply hd
      rw [dot_self_zero hu, h]
      simp [eucl]
    · have hc : 0 < eucl (asV 3 (rvec (Ops.cross a b w))) :=
        (eucl_nonneg _).lt_of_ne fun h => hd ((dot_self_zero hu _).2 h.symm)
      have kc := cross_near hu a b w
      have hAB : 0 < eucl A * eucl B := by
        refine hP.lt_of_ne fun h => ?_
        rw [← hA, ← hB, ← h, mul_zero] at kc
        have hx := eucl_cross A B
        rw [← h] at hx
        have := eucl_le_of _ _ kc
        change eucl (crossV A B) ≤ 0 at hx
        linarith
      obtain ⟨hA0, hB0⟩ : 0 < eucl A ∧ 0 < eucl B :=
        ⟨pos_of_mul_pos_left hAB (eucl_nonneg _), pos_of_mul_pos_right hAB (eucl_nonneg _)⟩
      obtain ⟨n, en, -⟩ := unitFl_near le_rfl hu (Ops.cross a b w) w hc
      obtain ⟨ua, ea, -⟩ := unitFl_near le_rfl hu a w (hA ▸ hA0)
      obtain ⟨ub, eb, -⟩ := unitFl_near le_rfl hu b w (hB ▸ hB0)
      unfold so3FromToFl
      dsimp only
      rw [if_neg hd, en, Option.bind_some, ea, Option.bind_some, eb, Option.map_some]
      exact ⟨_, rfl⟩

theorem soMul_exact (a b W : Mat (Fl Rounding.exact)) :
    asM 3 3 (rmat (soMul 3 a b W)) = asM 3 3 (rmat a) * asM 3 3 (rmat b) := by
  ext i j
  have h := c61_mulMM (ρ := Rounding.exact) 3 3 3 (by simp [Rounding.exact]) a b W i j i.2 j.2
  have g : gam (Rounding.exact).u 3 = 0 := by simp [gam, Rounding.exact]
  rw [g, zero_mul] at h
  have h2 := sub_eq_zero.1 (abs_nonpos_iff.1 h)
  rw [Matrix.mul_apply]
  refine Eq.trans h2 ?_
  rw [Finset.sum_range]; rfl

/-- **C90** in exact arithmetic this model is the one of `Model/SO.lean` -/
theorem c90_exact (a b w : Vec (Fl Rounding.exact)) (M0 M1 W : Mat (Fl Rounding.exact)) :
    (so3FromToFl a b w M0 M1 W).map (fun o => match o with | .ok C => Outcome.ok (asM 3 3 (rmat C)) | .abort => .abort | .ub => .ub) =
      so3FromTo (asV 3 (rvec a)) (asV 3 (rvec b)) := by
  have bs : ∀ {α β γ : Type} (x : Option α) (f : α → Option β) (g : β → γ), (x.bind f).map g = x.bind fun a => (f a).map g := by
    intro α β γ x f g; cases x <;> rfl
  have mb : ∀ {α β γ : Type} (x : Option α) (g : α → β) (f : β → Option γ), (x.map g).bind f = x.bind fun a => f (g a) := by
    intro α β γ x f g; cases x <;> rfl
  have z : Ops.dot 3 (Ops.cross a b w) (Ops.cross a b w) = 0 ↔
      crossV (asV 3 (rvec a)) (asV 3 (rvec b)) ⬝ᵥ crossV (asV 3 (rvec a)) (asV 3 (rvec b)) = 0 := by
    rw [Fl.eq_zero_iff, dot_exact, cross_exact]
  have q : Ops.dot 3 a b ≥ 0 ↔ asV 3 (rvec a) ⬝ᵥ asV 3 (rvec b) ≥ 0 := by
    rw [ge_iff_le, ge_iff_le, ← dot_exact]; rfl
  unfold so3FromToFl so3FromTo
  dsimp only
  by_cases h : Ops.dot 3 (Ops.cross a b w) (Ops.cross a b w) = 0
  · rw [if_pos h, if_pos (z.1 h)]
    by_cases h2 : Ops.dot 3 a b ≥ 0
    · rw [if_pos h2, if_pos (q.1 h2)]
      simp only [Option.map_some, Option.some.injEq, Outcome.ok.injEq]
      ext i j
      show (if (i : ℕ) = (j : ℕ) then (1 : Fl Rounding.exact) else 0).val = (1 : M 3) i j
      rw [Matrix.one_apply]
      by_cases e : i = j
      · rw [if_pos (by rw [e]), if_pos e, Fl.val_one]
      · rw [if_neg (fun k => e (Fin.ext k)), if_neg e, Fl.val_zero]
    · rw [if_neg h2, if_neg (fun k => h2 (q.2 k))]; rfl
  · rw [if_neg h, if_neg (fun k => h (z.2 k)), ← cross_exact a b w, ← unit_exact 3 (Ops.cross a b w) w, ← unit_exact 3 a w,
      ← unit_exact 3 b w, bs, mb]
    congr 1; funext n
    rw [bs, mb]
    congr 1; funext ua
    rw [Option.map_map, Option.map_map]
    congr 1; funext ub
    simp only [Function.comp, Outcome.ok.injEq]
    rw [soMul_exact, ← cross_exact ua n w, ← cross_exact ub n w]
    congr 1
    · ext i j; fin_cases j <;> rfl
    · ext i j; fin_cases i <;> rfl

set_option maxHeartbeats 1000000 in
/-- **C90** without the condition on the angle the claim is false.  In double precision, for the nearly parallel vectors
`a = (1, 1 + ε, 1.5 + ε)` and `b = (11, 11 + 8ε, 16.5 + 16ε)` with `ε = 2⁻⁵²`, the "rotation" has an element greater than `1.2` (the
computed `a × b` is not zero and is not orthogonal to `a`) -/
theorem c90_nearly_parallel_wrong (w : Vec (Fl Rounding.double)) (M0 M1 W : Mat (Fl Rounding.double)) :
    ∃ (a b : Vec (Fl Rounding.double)) (m : Mat (Fl Rounding.double)), (a 0).val = 1 ∧ (a 1).val = 1 + 1 / 2 ^ 52 ∧
      (a 2).val = 1.5 + 1 / 2 ^ 52 ∧ (b 0).val = 11 ∧ (b 1).val = 11 + 8 / 2 ^ 52 ∧ (b 2).val = 16.5 + 16 / 2 ^ 52 ∧
      so3FromToFl a b w M0 M1 W = some (.ok m) ∧ 1.2 < (m 0 0).val := by
  have hr : ∀ x, Rounding.double.rnd x = rndNearest 53 x := fun _ => rfl
  have hu : Rounding.double.u = 1 / 2 ^ 53 := Rounding.double_u
  have hu' : Rounding.double.u ≤ 1 / 10000 := by rw [hu]; norm_num
  have r1 : rndNearest 53 (1 + 1 / 2 ^ 52) = 1 + 1 / 2 ^ 52 := SymEigenF.rnd_dyadic (2 ^ 52 + 1) 52 (by norm_num) (by norm_num)
  have r2 : rndNearest 53 (1.5 + 1 / 2 ^ 52) = 1.5 + 1 / 2 ^ 52 :=
    SymEigenF.rnd_dyadic (3 * 2 ^ 51 + 1) 52 (by norm_num) (by norm_num)
  have s0 : rndNearest 53 11 = 11 := SymEigenF.rnd_dyadic 11 0 (by norm_num) (by norm_num)
  have s1 : rndNearest 53 (11 + 8 / 2 ^ 52) = 11 + 8 / 2 ^ 52 := SymEigenF.rnd_dyadic (11 * 2 ^ 49 + 1) 49 (by norm_num) (by norm_num)
  have s2 : rndNearest 53 (16.5 + 16 / 2 ^ 52) = 16.5 + 16 / 2 ^ 52 :=
    SymEigenF.rnd_dyadic (33 * 2 ^ 47 + 1) 48 (by norm_num) (by norm_num)
  set a : Vec (Fl Rounding.double) := fun i => if i = 0 then 1 else if i = 1 then ⟨1 + 1 / 2 ^ 52, r1⟩ else ⟨1.5 + 1 / 2 ^ 52, r2⟩ with ha
  set b : Vec (Fl Rounding.double) := fun i => if i = 0 then ⟨11, s0⟩ else if i = 1 then ⟨11 + 8 / 2 ^ 52, s1⟩ else ⟨16.5 + 16 / 2 ^ 52, s2⟩ with hb
  have a0 : (a 0).val = 1 := rfl
  have a1 : (a 1).val = 1 + 1 / 2 ^ 52 := rfl
  have a2 : (a 2).val = 1.5 + 1 / 2 ^ 52 := rfl
  have b0 : (b 0).val = 11 := rfl
  have b1 : (b 1).val = 11 + 8 / 2 ^ 52 := rfl
  have b2 : (b 2).val = 16.5 + 16 / 2 ^ 52 := rfl
  clear_value a b
  -- the products
  have p12 : (a 1 * b 2).val = 16.5 + 32 / 2 ^ 52 := by
    rw [Fl.val_mul, a1, b2, hr, SymEigenF.rnd_binade 53 (k := 33 * 2 ^ 47 + 2) (e := 4) (by norm_num) (by norm_num) (by norm_num [abs_lt])]
    norm_num
  have p21 : (a 2 * b 1).val = 16.5 + 16 / 2 ^ 52 := by
    rw [Fl.val_mul, a2, b1, hr, SymEigenF.rnd_binade 53 (k := 33 * 2 ^ 47 + 1) (e := 4) (by norm_num) (by norm_num) (by norm_num [abs_lt])]
    norm_num
  have p20 : (a 2 * b 0).val = 16.5 + 16 / 2 ^ 52 := by
    rw [Fl.val_mul, a2, b0, hr, SymEigenF.rnd_binade 53 (k := 33 * 2 ^ 47 + 1) (e := 4) (by norm_num) (by norm_num) (by norm_num [abs_lt])]
    norm_num
  have p02 : (a 0 * b 2).val = 16.5 + 16 / 2 ^ 52 := by rw [Fl.val_mul, a0, one_mul, b2, hr, s2]
  have p10 : (a 1 * b 0).val = 11 + 8 / 2 ^ 52 := by
    rw [Fl.val_mul, a1, b0, hr, SymEigenF.rnd_binade 53 (k := 11 * 2 ^ 49 + 1) (e := 3) (by norm_num) (by norm_num) (by norm_num [abs_lt])]
    norm_num
  have p01 : (a 0 * b 1).val = 11 + 8 / 2 ^ 52 := by rw [Fl.val_mul, a0, one_mul, b1, hr, s1]
  -- the cross product
  set c := Ops.cross a b w with hc
  have c0 : (c 0).val = 1 / 2 ^ 48 := by
    show (a 1 * b 2 - a 2 * b 1).val = _
    rw [Fl.val_sub, p12, p21, hr, SymEigenF.rnd_dyadic (1 : ℤ) 48 (by norm_num) (by norm_num)]; norm_num
  have c1 : c 1 = 0 := by
    apply Fl.ext
    show (a 2 * b 0 - a 0 * b 2).val = _
    rw [Fl.val_sub, p20, p02, sub_self, Fl.rnd_zero, Fl.val_zero]
  have c2 : c 2 = 0 := by
    apply Fl.ext
    show (a 0 * b 1 - a 1 * b 0).val = _
    rw [Fl.val_sub, p01, p10, sub_self, Fl.rnd_zero, Fl.val_zero]
  have dc : (Ops.dot 3 c c).val = 1 / 2 ^ 96 := by
    have : Ops.dot 3 c c = c 0 * c 0 := by
      show ((0 + c 0 * c 0) + c 1 * c 1) + c 2 * c 2 = c 0 * c 0
      rw [c1, c2]
      simp only [fl_mul_zero, fl_add_zero]
      apply Fl.ext
      rw [Fl.val_add, Fl.val_zero, zero_add]
      exact (c 0 * c 0).2
    rw [this, Fl.val_mul, c0, hr, SymEigenF.rnd_dyadic (1 : ℤ) 96 (by norm_num) (by norm_num)]; norm_num
  have hd : Ops.dot 3 c c ≠ 0 := by
    intro h; rw [h, Fl.val_zero] at dc; norm_num at dc
  have sq : (Fl.sqrt (Ops.dot 3 c c)).val = 1 / 2 ^ 48 := by
    rw [Fl.val_sqrt, dc, show (1 / 2 ^ 96 : ℝ) = (1 / 2 ^ 48) ^ 2 by norm_num, Real.sqrt_sq (by norm_num), hr,
      SymEigenF.rnd_dyadic (1 : ℤ) 48 (by norm_num) (by norm_num)]
  have inv : (1 / Fl.sqrt (Ops.dot 3 c c)).val = 2 ^ 48 := by
    rw [Fl.val_div, Fl.val_one, sq, hr, SymEigenF.rnd_dyadic (2 ^ 48 : ℤ) 0 (by norm_num) (by norm_num)]; norm_num
  obtain ⟨n, en, n0, n1, n2⟩ : ∃ n, unitFl 3 c w = some n ∧ n 0 = 1 ∧ n 1 = 0 ∧ n 2 = 0 := by
    unfold unitFl
    rw [if_neg (by intro h; rw [h, Fl.val_zero] at sq; norm_num at sq)]
    refine ⟨_, rfl, ?_, ?_, ?_⟩ <;> rw [Ops.applyScalarV, forN_vecset, if_pos (by norm_num)]
    · apply Fl.ext
      rw [Fl.val_mul, c0, inv, Fl.val_one, hr]
      rw [show (1 / 2 ^ 48 * 2 ^ 48 : ℝ) = 1 by norm_num]
      exact SymEigenF.rnd_dyadic (1 : ℤ) 0 (by norm_num) (by norm_num)
    · rw [c1, fl_zero_mul]
    · rw [c2, fl_zero_mul]
  -- the unit vectors
  have first : ∀ v : Vec (Fl Rounding.double), 0 < (v 0).val → 0.95 * (v 0).val ≤ (v 1).val → (v 1).val ≤ 1.01 * (v 0).val →
      0 ≤ (v 2).val → (v 2).val ≤ 1.51 * (v 0).val → ∃ r, unitFl 3 v w = some r ∧ 0.48 ≤ (r 0).val := by
    intro v h0 h1 h1' h2 h2'
    have hsum := eucl_sum (asV 3 (rvec v))
    rw [Fin.sum_univ_three] at hsum
    change _ = (v 0).val ^ 2 + (v 1).val ^ 2 + (v 2).val ^ 2 at hsum
    have hle : eucl (asV 3 (rvec v)) ≤ 2.08 * (v 0).val := by
      apply le_of_sq (by positivity)
      rw [hsum]
      have q1 := pow_le_pow_left₀ (by linarith [mul_pos (show (0:ℝ) < 0.95 by norm_num) h0]) h1' 2
      have q2 := pow_le_pow_left₀ h2 h2' 2
      norm_num [mul_pow] at q1 q2 ⊢
      nlinarith [sq_nonneg (v 0).val]
    have hpos : 0 < eucl (asV 3 (rvec v)) := by
      refine (eucl_nonneg _).lt_of_ne fun h => ?_
      rw [← h] at hsum
      nlinarith [sq_nonneg (v 1).val, sq_nonneg (v 2).val, mul_pos h0 h0]
    obtain ⟨r, er, hr⟩ := unitFl_near le_rfl hu' v w hpos
    refine ⟨r, er, ?_⟩
    have hb := (abs_le_eucl (asV 3 (rvec r) - (1 / eucl (asV 3 (rvec v))) • asV 3 (rvec v)) 0).trans hr
    change |(r 0).val - 1 / eucl (asV 3 (rvec v)) * (v 0).val| ≤ _ at hb
    have hq : 1 / 2.08 ≤ 1 / eucl (asV 3 (rvec v)) * (v 0).val := by
      rw [one_div_mul_eq_div, le_div_iff₀ hpos]
      norm_num at hle ⊢; linarith
    rw [abs_le, hu] at hb
    generalize 1 / eucl (asV 3 (rvec v)) * (v 0).val = q at *
    norm_num at hb hq ⊢
    linarith [hb.1]
  obtain ⟨ua, ea, hua⟩ := first a (by rw [a0]; norm_num) (by rw [a0, a1]; norm_num) (by rw [a0, a1]; norm_num) (by rw [a2]; norm_num) (by rw [a0, a2]; norm_num)
  obtain ⟨ub, eb, hub⟩ := first b (by rw [b0]; norm_num) (by rw [b0, b1]; norm_num) (by rw [b0, b1]; norm_num) (by rw [b2]; norm_num) (by rw [b0, b2]; norm_num)
  have cz : ∀ v : Vec (Fl Rounding.double), Ops.cross v n w 0 = 0 := by
    intro v
    show v 1 * n 2 - v 2 * n 1 = 0
    rw [n1, n2, fl_mul_zero, fl_mul_zero, fl_sub_zero]
  refine ⟨a, b, _, a0, a1, a2, b0, b1, b2, (by
    unfold so3FromToFl
    dsimp only
    rw [← hc, if_neg hd, en, Option.bind_some, ea, Option.bind_some, eb, Option.map_some]), ?_⟩
  have h := c61_mulMM (ρ := Rounding.double) 3 3 3 (by rw [hu]; norm_num)
    (setCol (setCol (setCol M0 0 ub) 1 n) 2 (Ops.cross (fun r => setCol (setCol M0 0 ub) 1 n r 0) n w))
    (Mat.T (setCol (setCol (setCol M1 0 ua) 1 n) 2 (Ops.cross (fun r => setCol (setCol M1 0 ua) 1 n r 0) n w))) W 0 0 (by norm_num) (by norm_num)
  have m0 : ∀ (M : Mat (Fl Rounding.double)) (u : Vec (Fl Rounding.double)) (k : ℕ), k < 3 →
      setCol (setCol (setCol M 0 u) 1 n) 2 (Ops.cross (fun r => setCol (setCol M 0 u) 1 n r 0) n w) 0 k =
      if k = 0 then u 0 else if k = 1 then 1 else 0 := by
    intro M u k hk
    have : k = 0 ∨ k = 1 ∨ k = 2 := by omega
    rcases this with rfl | rfl | rfl
    · rfl
    · exact n0
    · exact cz _
  have e1 : ∀ f : ℕ → ℝ, ∑ k ∈ range 3, f k = f 0 + f 1 + f 2 := fun f => by simp [sum_range_succ]
  simp only [Mat.T, e1] at h
  rw [m0 _ _ 0 (by norm_num), m0 _ _ 1 (by norm_num), m0 _ _ 2 (by norm_num), m0 _ _ 0 (by norm_num), m0 _ _ 1 (by norm_num), m0 _ _ 2 (by norm_num)] at h
  rw [if_pos rfl, if_pos rfl, if_neg (by norm_num), if_pos rfl, if_neg (by norm_num), if_neg (by norm_num), if_neg (by norm_num)] at h
  have g := gam_le Rounding.double.u_nonneg hu' 3 (by norm_num)
  rw [Fl.val_one, Fl.val_zero, zero_mul, mul_one, abs_one, abs_zero, zero_mul, add_zero, add_zero, mul_one, ← abs_mul] at h
  change _ < (Ops.mulMM 3 3 3 _ _ W 0 0).val
  generalize (Ops.mulMM 3 3 3 _ _ W 0 0).val = x at *
  have hp : 0.48 * 0.48 ≤ (ub 0).val * (ua 0).val := mul_le_mul hub hua (by norm_num) (le_trans (by norm_num) hub)
  generalize (ub 0).val * (ua 0).val = p at *
  rw [abs_of_nonneg (le_trans (by norm_num) hp)] at h
  rw [hu] at g h
  generalize gam (1 / 2 ^ 53) 3 = G at *
  norm_num at g hp
  rw [abs_le] at h
  have : G * (p + 1) ≤ 1 / 10000 * (p + 1) := mul_le_mul_of_nonneg_right (by linarith) (by linarith)
  norm_num
  linarith [h.1]

/-- a case that meets the hypotheses: in double precision `SO3(e₀, e₁)` succeeds, and is within `10⁻¹⁴` of a rotation about `e₂` taking
`e₀` to a positive multiple of `e₁` -/
theorem c90_worked (w : Vec (Fl Rounding.double)) (M0 M1 W : Mat (Fl Rounding.double)) :
    ∃ (m : Mat (Fl Rounding.double)) (R : M 3),
      so3FromToFl (fun i => if i = 0 then 1 else 0) (fun i => if i = 1 then 1 else 0) w M0 M1 W = some (.ok m) ∧ IsRot R ∧
      R.mulVec ![0, 0, 1] = ![0, 0, 1] ∧ (∃ k : ℝ, 0 < k ∧ R.mulVec ![1, 0, 0] = k • ![0, 1, 0]) ∧
      frob (asM 3 3 (rmat m) - R) ≤ 1 / 10 ^ 14 := by
  have hu : Rounding.double.u = 1 / 2 ^ 53 := Rounding.double_u
  have ea : asV 3 (rvec (fun i => if i = 0 then (1 : Fl Rounding.double) else 0)) = ![1, 0, 0] := by
    funext i; fin_cases i <;> simp [asV, rvec, Fl.val_one, Fl.val_zero]
  have eb : asV 3 (rvec (fun i => if i = 1 then (1 : Fl Rounding.double) else 0)) = ![0, 1, 0] := by
    funext i; fin_cases i <;> simp [asV, rvec, Fl.val_one, Fl.val_zero]
  have ex : crossV ![1, 0, 0] ![0, 1, 0] = ![0, 0, 1] := by
    funext i; fin_cases i <;> simp [crossV]
  have na : eucl (![1, 0, 0] : Lie.V 3) = 1 := by simp [eucl, Fin.sum_univ_three]
  have nb : eucl (![0, 1, 0] : Lie.V 3) = 1 := by simp [eucl, Fin.sum_univ_three]
  have nc : eucl (![0, 0, 1] : Lie.V 3) = 1 := by simp [eucl, Fin.sum_univ_three]
  have h := c90_from_to_partial (ρ := Rounding.double) (by rw [hu]; norm_num) (fun i => if i = 0 then 1 else 0)
    (fun i => if i = 1 then 1 else 0) w M0 M1 W 1 (by rw [ea, na]; norm_num) (by rw [eb, nb]; norm_num)
    (by rw [ea, eb, ex, na, nb, nc]; norm_num) one_pos (by rw [hu]; norm_num)
  rw [ea, eb, ex] at h
  obtain ⟨m, R, h1, h2, h3, h4, h5⟩ := h
  refine ⟨m, R, h1, h2, h3, h4, h5.trans ?_⟩
  rw [hu]; norm_num

end TooN.FlRot
