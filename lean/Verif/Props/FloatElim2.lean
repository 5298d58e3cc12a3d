import Verif.Props.FloatSL2
/-!
# C63: forward error of `gaussian_elimination`
-/
set_option linter.unusedSectionVars false
namespace TooN.Elim
open Finset
variable {ρ : Rounding}

/-- **C63** forward error: with `B` the exact inverse of `A`, `K` a bound of its absolute row sums and `K n β < 1`, `β` the backward error of
`c63_stable`, `gaussian_elimination(A, b)` does not divide by zero and its result differs from the exact solution `z` by at most
`Kβ/(1-Knβ) ‖z‖₁` in every component -/
theorem c63_forward (n : ℕ) (hu : ((3 * n + 1 : ℕ) : ℝ) * ρ.u < 1) (A : Mat (Fl ρ)) (b : Vec (Fl ρ)) (x : Mat (Fl ρ))
    (M : ℝ) (hM : ∀ r c, r < n → c < n → |(A r c).val| ≤ M)
    (B : Matrix (Fin n) (Fin n) ℝ) (hB : B * asM n n (rmat A) = 1) (K β : ℝ) (hK : ∀ r, ∑ c, |B r c| ≤ K)
    (hβ : β = gam ρ.u (3*n+1) * (2^n * (1+ρ.u)^(4*n+2) * M)) (hs : K * (n * β) < 1)
    (z : Fin n → ℝ) (hz : (asM n n (rmat A)).mulVec z = fun r : Fin n => (b r).val) :
    ∃ y, gaussElimV n A b x = some y ∧ ∀ r : Fin n, |(y r).val - z r| ≤ K * β / (1 - K * (n * β)) * ∑ c, |z c| := by
  rcases Nat.eq_zero_or_pos n with h0 | hn
  · subst h0
    cases hX : gaussElimV 0 A b x with
    | some y => exact ⟨y, rfl, fun r => r.elim0⟩
    | none => simp [gaussElimV, gaussElim, forNM] at hX
  have K0 : 0 ≤ K := le_trans (sum_nonneg fun _ _ => abs_nonneg _) (hK ⟨0, hn⟩)
  have M0 : 0 ≤ M := le_trans (abs_nonneg _) (hM 0 0 hn hn)
  have g0 : 0 ≤ gam ρ.u (3*n+1) := gam_nonneg ρ.u_nonneg ρ.u_lt_one hu
  have u0 := ρ.u_nonneg
  have b0 : 0 ≤ β := by rw [hβ]; positivity
  -- the elimination of the matrix does not depend on the right-hand side: use the failure criterion
  cases hY : gaussElimV n A b x with
  | none =>
    exfalso
    have hX : gaussElim n 1 A (fun i _ => b i) x = none := by
      unfold gaussElimV at hY
      cases h : gaussElim n 1 A (fun i _ => b i) x with
      | none => rfl
      | some X => rw [h] at hY; simp at hY
    have hu' : ((n + 1 : ℕ) : ℝ) * ρ.u < 1 :=
      lt_of_le_of_lt (mul_le_mul_of_nonneg_right (by exact_mod_cast (by omega : n + 1 ≤ 3*n+1)) u0) hu
    obtain ⟨E, w, hE, ⟨c, hc, hw⟩, he⟩ := c63_fails_only_near_singular n 1 hu' A _ x hX M hM
    have hg : gam ρ.u (n+1) ≤ gam ρ.u (3*n+1) := gam_mono u0 ρ.u_lt_one (by omega) hu
    have hE' : ∀ r c, r < n → c < n → |E r c| ≤ β := fun r c hr hc =>
      (hE r c hr hc).trans (by rw [hβ]; exact mul_le_mul_of_nonneg_right hg (by positivity))
    have hww : ∀ r : Fin n, w r = -∑ k : Fin n, B r k * ∑ c : Fin n, E k c * w c := by
      intro r
      have e1 : ∀ k : Fin n, ∑ c : Fin n, E k c * w c = -∑ c : Fin n, (A k c).val * w c := by
        intro k
        have := he k k.2
        rw [← Fin.sum_univ_eq_sum_range (fun c => ((A k c).val + E k c) * w c)] at this
        simp only [add_mul, sum_add_distrib] at this
        linarith
      simp only [e1, mul_neg, sum_neg_distrib, neg_neg]
      have e2 : ∑ k : Fin n, B r k * ∑ c : Fin n, (A k c).val * w c = ((B * asM n n (rmat A)).mulVec (fun c : Fin n => w c)) r := by
        rw [← Matrix.mulVec_mulVec]
        simp only [Matrix.mulVec, dotProduct, asM_apply, rmat]
      rw [e2, hB, Matrix.one_mulVec]
    have : Nonempty (Fin n) := ⟨⟨0, hn⟩⟩
    obtain ⟨i, -, hi⟩ := exists_max_image (univ : Finset (Fin n)) (fun r => |w r|) univ_nonempty
    have hpos : 0 < |w i| := lt_of_lt_of_le (abs_pos.2 hw) (hi ⟨c, hc⟩ (mem_univ _))
    have : |w i| ≤ K * (n * β) * |w i| := by
      conv_lhs => rw [hww i]
      rw [abs_neg]
      refine le_trans (abs_sum_le_sum_abs _ _) ?_
      have : ∀ k : Fin n, |B i k * ∑ c : Fin n, E k c * w c| ≤ |B i k| * (n * β * |w i|) := by
        intro k
        rw [abs_mul]
        refine mul_le_mul_of_nonneg_left ?_ (abs_nonneg _)
        refine le_trans (abs_sum_le_sum_abs _ _) ?_
        refine le_trans (sum_le_sum (g := fun _ => β * |w i|) fun c _ => ?_) ?_
        · rw [abs_mul]
          exact mul_le_mul (hE' k c k.2 c.2) (hi c (mem_univ _)) (abs_nonneg _) b0
        · rw [sum_const, card_univ, Fintype.card_fin, nsmul_eq_mul]; exact le_of_eq (by ring)
      refine le_trans (sum_le_sum fun k _ => this k) ?_
      rw [← sum_mul]
      calc (∑ k, |B i k|) * (n * β * |w i|) ≤ K * (n * β * |w i|) :=
            mul_le_mul_of_nonneg_right (hK i) (by positivity)
        _ = _ := by ring
    nlinarith
  | some y =>
    refine ⟨y, rfl, ?_⟩
    obtain ⟨E, hE, he⟩ := c63_stable_vector n hu A b y x hY M hM
    rw [← hβ] at hE
    generalize hS : ∑ c : Fin n, |(y c).val| = S
    have hS0 : 0 ≤ S := by rw [← hS]; exact sum_nonneg fun _ _ => abs_nonneg _
    -- y - z = -B E y
    have hdiff : ∀ s : Fin n, |(y s).val - z s| ≤ K * β * S := by
      intro s
      have e1 : ∀ k : Fin n, ∑ c : Fin n, E k c * (y c).val = (b k).val - ∑ c : Fin n, (A k c).val * (y c).val := by
        intro k
        have := he k k.2
        rw [← Fin.sum_univ_eq_sum_range (fun c => ((A k c).val + E k c) * (y c).val)] at this
        simp only [add_mul, sum_add_distrib] at this
        linarith
      have e2 : (y s).val - z s = -∑ k : Fin n, B s k * ∑ c : Fin n, E k c * (y c).val := by
        have a1 : ((B * asM n n (rmat A)).mulVec (fun c : Fin n => (y c).val)) s =
            ∑ k : Fin n, B s k * ∑ c : Fin n, (A k c).val * (y c).val := by
          rw [← Matrix.mulVec_mulVec]; simp only [Matrix.mulVec, dotProduct, asM_apply, rmat]
        have a2 : ((B * asM n n (rmat A)).mulVec z) s = ∑ k : Fin n, B s k * (b k).val := by
          rw [← Matrix.mulVec_mulVec, hz]; simp only [Matrix.mulVec, dotProduct]
        rw [hB, Matrix.one_mulVec] at a1 a2
        rw [a2]
        change (y s).val = _ at a1
        rw [a1]
        simp only [e1, mul_sub, sum_sub_distrib]
        ring
      rw [e2, abs_neg]
      refine le_trans (abs_sum_le_sum_abs _ _) ?_
      have : ∀ k : Fin n, |B s k * ∑ c : Fin n, E k c * (y c).val| ≤ |B s k| * (β * S) := by
        intro k
        rw [abs_mul]
        refine mul_le_mul_of_nonneg_left ?_ (abs_nonneg _)
        refine le_trans (abs_sum_le_sum_abs _ _) ?_
        rw [← hS, mul_sum]
        refine sum_le_sum fun c _ => ?_
        rw [abs_mul]
        exact mul_le_mul_of_nonneg_right (hE k c k.2 c.2) (abs_nonneg _)
      refine le_trans (sum_le_sum fun k _ => this k) ?_
      rw [← sum_mul]
      calc (∑ k, |B s k|) * (β * S) ≤ K * (β * S) := mul_le_mul_of_nonneg_right (hK s) (by positivity)
        _ = _ := by ring
    have hSB : S ≤ ∑ c, |z c| + K * (n * β) * S := by
      conv_lhs => rw [← hS]
      have : ∀ c : Fin n, |(y c).val| ≤ |z c| + K * β * S := by
        intro c
        have h2 := hdiff c
        have h3 := abs_add_le (z c) ((y c).val - z c)
        rw [add_sub_cancel] at h3
        linarith
      refine le_trans (sum_le_sum fun c _ => this c) ?_
      rw [sum_add_distrib, sum_const, card_univ, Fintype.card_fin, nsmul_eq_mul]
      exact le_of_eq (by ring)
    have hS2 : S ≤ (∑ c, |z c|) / (1 - K * (n * β)) := by
      rw [le_div_iff₀ (by linarith)]; linarith
    intro r
    refine le_trans (hdiff r) ?_
    calc K * β * S ≤ K * β * ((∑ c, |z c|) / (1 - K * (n * β))) := mul_le_mul_of_nonneg_left hS2 (by positivity)
      _ = _ := by ring

/-- the hypotheses hold for `2 I y = (2, 2)` in double precision -/
example (x : Mat (Fl Rounding.double)) : ∃ y, gaussElimV 2 SLF.twoI (fun _ => Fl.of Rounding.double 2) x = some y ∧
    ∀ r : Fin 2, |(y r).val - 1| ≤ 1/10^10 := by
  have hu := Rounding.double_u
  have hb : gam Rounding.double.u (3*2+1) * (2^2 * (1+Rounding.double.u)^(4*2+2) * 2) ≤ 1/10^12 := by
    unfold gam
    rw [hu]
    norm_num
  have hb0 : 0 ≤ gam Rounding.double.u (3*2+1) * (2^2 * (1+Rounding.double.u)^(4*2+2) * 2) := by
    unfold gam
    rw [hu]
    norm_num
  generalize hβ : gam Rounding.double.u (3*2+1) * (2^2 * (1+Rounding.double.u)^(4*2+2) * 2) = β at hb hb0
  obtain ⟨y, h1, h2⟩ := c63_forward 2 (by rw [hu]; norm_num) SLF.twoI (fun _ => Fl.of Rounding.double 2) x 2 (SLF.twoI_le 2)
    !![1/2, 0; 0, 1/2]
    (by
      rw [SLF.asM_twoI]
      ext r c
      fin_cases r <;> fin_cases c <;> simp [Matrix.mul_apply, Fin.sum_univ_two])
    (1/2) β (by intro r; fin_cases r <;> norm_num [Fin.sum_univ_two]) hβ.symm (by push_cast; linarith) (fun _ => 1)
    (by
      rw [SLF.asM_twoI, SLF.of_two]
      ext r
      fin_cases r <;> simp [Matrix.mulVec, dotProduct, Fin.sum_univ_two])
  refine ⟨y, h1, fun r => (h2 r).trans ?_⟩
  rw [Fin.sum_univ_two, abs_one]
  have : 1/2 * β / (1 - 1/2 * ((2:ℕ) * β)) ≤ 1/10^11 := by
    push_cast
    rw [div_le_iff₀ (by linarith)]
    nlinarith
  linarith

end TooN.Elim
