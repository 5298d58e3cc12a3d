import Verif.Proof.FloatElim
import Verif.Model.ElimMixed
/-! Mixed-precision arithmetic: values of a narrow type are exact in a wide type; double rounding. -/
set_option linter.unusedSectionVars false
namespace TooN
variable {ρ δ : Rounding}

/-- every value of the type with arithmetic `ρ` is exactly representable in the type with arithmetic `δ` -/
def Fits (ρ δ : Rounding) : Prop := ∀ x, ρ.rnd x = x → δ.rnd x = x

theorem Fits.refl (ρ : Rounding) : Fits ρ ρ := fun _ h => h

/-- fewer bits fit into more bits -/
theorem rndNearest_fits (p q : ℕ) (hpq : p ≤ q) (x : ℝ) (h : rndNearest p x = x) : rndNearest q x = x := by
  have e : ulp p x = (2^(q-p) : ℤ) * ulp q x := by
    unfold ulp
    push_cast
    rw [← zpow_natCast, ← zpow_add₀ (by norm_num)]
    congr 1
    have : ((q - p : ℕ) : ℤ) = (q:ℤ) - p := by omega
    rw [this]; ring
  have hx : x / ulp q x = ((rne (x / ulp p x) * 2^(q-p) : ℤ) : ℝ) := by
    rw [div_eq_iff (ulp_pos q x).ne']
    conv_lhs => rw [← h]
    unfold rndNearest
    rw [e]; push_cast; ring
  unfold rndNearest
  rw [hx, rne_int, ← hx, div_mul_cancel₀ _ (ulp_pos q x).ne']

theorem fits_float_double : Fits Rounding.float Rounding.double :=
  fun x h => rndNearest_fits 24 53 (by norm_num) x h

/-- unit roundoff of a result that is rounded to `δ` and then to `ρ` -/
noncomputable def u2 (ρ δ : Rounding) : ℝ := ρ.u + δ.u + ρ.u * δ.u

theorem u2_ge_left (ρ δ : Rounding) : ρ.u ≤ u2 ρ δ := by
  unfold u2; nlinarith [ρ.u_nonneg, δ.u_nonneg]

theorem u2_ge_right (ρ δ : Rounding) : δ.u ≤ u2 ρ δ := by
  unfold u2; nlinarith [ρ.u_nonneg, δ.u_nonneg]

theorem u2_nonneg (ρ δ : Rounding) : 0 ≤ u2 ρ δ := le_trans ρ.u_nonneg (u2_ge_left ρ δ)

/-- two roundings in a row, as one -/
theorem rnd2_fac (h : u2 ρ δ < 1) (x : ℝ) : ∃ f, Fac (u2 ρ δ) 1 f ∧ ρ.rnd (δ.rnd x) = x * f := by
  obtain ⟨f, hf, e⟩ := rnd_fac δ x
  obtain ⟨g, hg, e2⟩ := rnd_fac ρ (δ.rnd x)
  refine ⟨f * g, ?_, by rw [e2, e]; ring⟩
  have a := hf
  have b := hg
  unfold Fac at a b ⊢
  rw [pow_one] at a b ⊢
  have hr := ρ.u_nonneg
  have hd := δ.u_nonneg
  have hr1 := ρ.u_lt_one
  have hd1 := δ.u_lt_one
  have le : 1 - u2 ρ δ ≤ (1 - δ.u) * (1 - ρ.u) := by unfold u2; nlinarith [mul_nonneg hr hd]
  have fpos := hf.pos hd hd1
  have gpos := hg.pos hr hr1
  refine ⟨le_trans le (mul_le_mul a.1 b.1 (by linarith) fpos.le), ?_⟩
  calc f * g * (1 - u2 ρ δ) ≤ f * g * ((1 - δ.u) * (1 - ρ.u)) := mul_le_mul_of_nonneg_left le (by positivity)
    _ = (f * (1 - δ.u)) * (g * (1 - ρ.u)) := by ring
    _ ≤ 1 := mul_le_one₀ a.2 (mul_nonneg gpos.le (by linarith)) b.2

theorem rnd2_le (x : ℝ) : |ρ.rnd (δ.rnd x)| ≤ (1 + u2 ρ δ) * |x| := by
  have e1 := Elim.rnd_le ρ (δ.rnd x)
  have e2 := mul_le_mul_of_nonneg_left (Elim.rnd_le δ x) (by linarith [ρ.u_nonneg] : 0 ≤ 1 + ρ.u)
  refine le_trans e1 (le_trans e2 (le_of_eq ?_))
  unfold u2; ring

namespace Elim

/-- the row update evaluated in a wider type and rounded to the element type -/
noncomputable def updWide (ρ δ : Rounding) (a f x : Fl ρ) : Fl ρ :=
  Fl.of ρ (δ.rnd (a.val - δ.rnd (f.val * x.val)))

theorem updOk_wide (h : u2 ρ δ < 1) : UpdOk ρ (u2 ρ δ) (updWide ρ δ) := by
  intro a l x
  have h0 := u2_nonneg ρ δ
  constructor
  · obtain ⟨f, hf, ef⟩ := rnd_fac δ (l.val * x.val)
    obtain ⟨g, hg, eg⟩ := rnd2_fac h (a.val - δ.rnd (l.val * x.val))
    refine ⟨g⁻¹, f, hg.inv h0 h, hf.weaken h (u2_ge_right ρ δ) (hf.pos δ.u_nonneg δ.u_lt_one).le, ?_⟩
    have g0 := (hg.pos h0 h).ne'
    show a.val = (ρ.rnd (δ.rnd (a.val - δ.rnd (l.val * x.val)))) * g⁻¹ + l.val * x.val * f
    rw [eg, ef]; field_simp; ring
  · refine le_trans (rnd2_le (ρ := ρ) (δ := δ) (a.val - δ.rnd (l.val * x.val))) (mul_le_mul_of_nonneg_left ?_ (by linarith))
    refine le_trans (abs_sub _ _) ?_
    have e2 := rnd_le δ (l.val * x.val)
    rw [abs_mul] at e2
    have := u2_ge_right ρ δ
    have p : 0 ≤ |l.val| * |x.val| := by positivity
    nlinarith

theorem Fl.of_val (x : Fl ρ) : Fl.of ρ x.val = x := Fl.ext x.repr

theorem pivotRowMixed_eq (h : Fits ρ δ) (n i : ℕ) (A : Mat (Fl ρ)) : pivotRowMixed δ n i A = pivotRow n i A := by
  unfold pivotRowMixed pivotRow
  congr 1
  apply forRange_congr
  intro ii st _ _
  have e : (Fl.of δ (fabs (A ii i)).val).val = (fabs (A ii i)).val := h _ (fabs (A ii i)).repr
  simp only [e, Fl.of_val]
  rfl

theorem geStepMixed_eq (h : Fits ρ δ) (n nc i : ℕ) (st : Mat (Fl ρ) × Mat (Fl ρ)) :
    geStepMixed δ δ n nc i st = geStepU (updWide ρ δ) n nc i st := by
  obtain ⟨A, b⟩ := st
  have key : ∀ (f : Fl ρ) (a x : Fl ρ), subMulMixed δ a (Fl.of δ f.val) x = updWide ρ δ a f x := by
    intro f a x
    unfold subMulMixed updWide
    rw [show (Fl.of δ f.val).val = f.val from h _ f.repr]
  unfold geStepMixed geStepU subRowU
  simp only [pivotRowMixed_eq h, key]

theorem gaussElimVMixed_eq (h : Fits ρ δ) (n : ℕ) (A : Mat (Fl ρ)) (b : Vec (Fl ρ)) (x : Mat (Fl ρ)) :
    gaussElimVMixed δ δ n A b x = (gaussElimU (updWide ρ δ) n 1 A (fun i _ => b i) x).bind fun x => some (fun i => x i 0) := by
  unfold gaussElimVMixed gaussElimU
  have : geStepMixed (ρ := ρ) δ δ n 1 = geStepU (updWide ρ δ) n 1 := by
    funext i st; exact geStepMixed_eq h n 1 i st
  rw [this]
  cases forNM n (geStepU (updWide ρ δ) n 1) (A, fun i _ => b i) <;> rfl

/-- with `Precision = double` nothing is mixed -/
theorem gaussElimVMixed_same (n : ℕ) (A : Mat (Fl ρ)) (b : Vec (Fl ρ)) (x : Mat (Fl ρ)) :
    gaussElimVMixed ρ ρ n A b x = gaussElimV n A b x := by
  rw [gaussElimVMixed_eq (Fits.refl ρ)]
  have : updWide ρ ρ = fun a f x => a - f * x := by
    funext a f x
    apply Fl.ext
    show ρ.rnd (ρ.rnd _) = _
    rw [ρ.idem]; rfl
  rw [this]; rfl

end Elim
end TooN
