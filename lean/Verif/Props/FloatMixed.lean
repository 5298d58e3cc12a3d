import Verif.Proof.Mixed
import Verif.Props.FloatElim
/-!
# C63 for the vector overload with its `double` intermediates

`ρ` is the arithmetic of the element type, `δ` that of `double`; `Fits ρ δ` says that every `Precision` value is a `double`
(`Precision` is `float` or `double`).  Rounding to `double` and then to `Precision` has unit roundoff
`u2 ρ δ = ρ.u + δ.u + ρ.u δ.u`.
-/
set_option linter.unusedSectionVars false
namespace TooN.Elim
open Finset
variable {ρ δ : Rounding}

/-- **C63** vector overload: the computed solution solves exactly a system whose matrix differs from `A`, entry by entry, by at most
`γ_{3n+1} 2^n (1+u)^{4n+2} max|A|`, `u = u2 ρ δ` -/
theorem c63_vector_overload (hf : Fits ρ δ) (n : ℕ) (hu1 : u2 ρ δ < 1) (hu : ((3 * n + 1 : ℕ) : ℝ) * u2 ρ δ < 1)
    (A : Mat (Fl ρ)) (b y : Vec (Fl ρ)) (x : Mat (Fl ρ)) (h : gaussElimVMixed δ δ n A b x = some y)
    (M : ℝ) (hM : ∀ r c, r < n → c < n → |(A r c).val| ≤ M) :
    ∃ E : Mat ℝ, (∀ r c, r < n → c < n → |E r c| ≤ gam (u2 ρ δ) (3*n+1) * (2^n * (1+u2 ρ δ)^(4*n+2) * M)) ∧
      ∀ r, r < n → ∑ c ∈ range n, ((A r c).val + E r c) * (y c).val = (b r).val := by
  rw [gaussElimVMixed_eq hf] at h
  cases hX : gaussElimU (updWide ρ δ) n 1 A (fun i _ => b i) x with
  | none => rw [hX] at h; exact absurd h (by simp)
  | some X =>
    rw [hX, Option.bind_some] at h
    have := Option.some.inj h
    subst this
    exact gu_stable hu1 (u2_ge_left ρ δ) (updOk_wide hu1) n 1 hu A _ x X hX M hM 0 (by omega)

/-- **C63** vector overload: a zero pivot only for a matrix within rounding errors of a singular one -/
theorem c63_vector_overload_singular (hf : Fits ρ δ) (n : ℕ) (hu1 : u2 ρ δ < 1) (hu : ((n + 1 : ℕ) : ℝ) * u2 ρ δ < 1)
    (A : Mat (Fl ρ)) (b : Vec (Fl ρ)) (x : Mat (Fl ρ)) (h : gaussElimVMixed δ δ n A b x = none)
    (M : ℝ) (hM : ∀ r c, r < n → c < n → |(A r c).val| ≤ M) :
    ∃ (E : Mat ℝ) (z : Vec ℝ), (∀ r c, r < n → c < n → |E r c| ≤ gam (u2 ρ δ) (n+1) * (2^n * (1+u2 ρ δ)^(4*n+2) * M)) ∧
      (∃ c, c < n ∧ z c ≠ 0) ∧ ∀ r, r < n → ∑ c ∈ range n, ((A r c).val + E r c) * z c = 0 := by
  rw [gaussElimVMixed_eq hf] at h
  cases hX : gaussElimU (updWide ρ δ) n 1 A (fun i _ => b i) x with
  | some X => rw [hX] at h; exact absurd h (by simp)
  | none => exact gu_fails_only_near_singular hu1 (u2_ge_left ρ δ) (updOk_wide hu1) n 1 hu A _ x hX M hM

/-- **C63** vector overload: success and accuracy for diagonally dominant matrices -/
theorem c63_vector_overload_dominant (hf : Fits ρ δ) (n : ℕ) (hu1 : u2 ρ δ < 1) (hu : ((3 * n + 1 : ℕ) : ℝ) * u2 ρ δ < 1)
    (A : Mat (Fl ρ)) (b : Vec (Fl ρ)) (x : Mat (Fl ρ)) (M : ℝ) (hM : ∀ r c, r < n → c < n → |(A r c).val| ≤ M)
    (hd : ∀ r, r < n → ∑ c ∈ (range n).erase r, |(A r c).val| +
      n * (gam (u2 ρ δ) (n+1) * (2^n * (1+u2 ρ δ)^(4*n+2) * M)) < |(A r r).val|) :
    ∃ y, gaussElimVMixed δ δ n A b x = some y ∧ ∃ E : Mat ℝ,
      (∀ r c, r < n → c < n → |E r c| ≤ gam (u2 ρ δ) (3*n+1) * (2^n * (1+u2 ρ δ)^(4*n+2) * M)) ∧
      ∀ r, r < n → ∑ c ∈ range n, ((A r c).val + E r c) * (y c).val = (b r).val := by
  obtain ⟨X, hX, hE⟩ := gu_dominant hu1 (u2_ge_left ρ δ) (updOk_wide hu1) n 1 hu A (fun i _ => b i) x M hM hd
  refine ⟨fun i => X i 0, ?_, hE 0 (by omega)⟩
  rw [gaussElimVMixed_eq hf, hX]; rfl

/-- **C63** with `Precision = double` the `double` intermediates change nothing: this is the generic program -/
theorem c63_vector_overload_double (n : ℕ) (A : Mat (Fl ρ)) (b : Vec (Fl ρ)) (x : Mat (Fl ρ)) :
    gaussElimVMixed ρ ρ n A b x = gaussElimV n A b x := gaussElimVMixed_same n A b x

/-- the hypotheses hold for `[[3,1],[1,3]]` with `Precision = float` -/
example (b : Vec (Fl Rounding.float)) :
    ∃ y, gaussElimVMixed Rounding.double Rounding.double 2
      (fun r c : ℕ => if r = c then Fl.of Rounding.float 3 else 1) b (fun _ _ => 0) = some y := by
  have hu : u2 Rounding.float Rounding.double = 1/2^24 + 1/2^53 + 1/2^24 * (1/2^53) := by
    unfold u2; rw [Rounding.float_u, Rounding.double_u]
  have h3 : (Fl.of Rounding.float 3).val = 3 := by
    have := rndNearest_int 24 (by norm_num) 3 (by norm_num)
    exact_mod_cast this
  obtain ⟨y, hy, -⟩ := c63_vector_overload_dominant fits_float_double 2 (by rw [hu]; norm_num) (by rw [hu]; norm_num)
    (fun r c : ℕ => if r = c then Fl.of Rounding.float 3 else 1) b (fun _ _ => 0) 3
    (by
      intro r c _ _
      by_cases e : r = c
      · rw [if_pos e, h3]; norm_num
      · rw [if_neg e]; norm_num)
    (by
      intro r hr
      have hr : r = 0 ∨ r = 1 := by omega
      rcases hr with rfl | rfl
      · rw [show (range 2).erase 0 = {1} by decide, gam, hu]
        norm_num [h3]
      · rw [show (range 2).erase 1 = {0} by decide, gam, hu]
        norm_num [h3])
  exact ⟨y, hy⟩

end TooN.Elim
