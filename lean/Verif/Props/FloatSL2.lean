import Verif.Props.FloatSL
import Mathlib.Topology.Instances.Matrix
/-!
# C96: failures of `coerce`, products and inverses of SL(N) in rounded arithmetic
-/
set_option linter.unusedSectionVars false
namespace TooN.SLF
open Finset
open scoped Classical
variable {ρ : Rounding}

/-- **C96** `coerce` never divides by zero; the assertion fails exactly when the computed determinant is zero, and a matrix of NaNs results
exactly when it is negative and `N ≠ 1` -/
theorem c96_coerce_outcomes (P : Fl ρ → Fl ρ → Fl ρ) (N : ℕ) (hu : ((N + 1 : ℕ) : ℝ) * ρ.u < 1) (m : Mat (Fl ρ)) :
    ∃ d, Elim.determinant N m = some d ∧ slCoerceFl P N m ≠ .ub ∧ (slCoerceFl P N m = .abort ↔ d.val = 0) ∧
      (slCoerceFl P N m = .ok none ↔ d.val < 0 ∧ N ≠ 1) := by
  have : ∃ M : ℝ, ∀ r c, r < N → c < N → |(m r c).val| ≤ M := by
    refine ⟨∑ r ∈ range N, ∑ c ∈ range N, |(m r c).val|, fun r c hr hc => ?_⟩
    refine le_trans ?_ (single_le_sum (f := fun r => ∑ c ∈ range N, |(m r c).val|)
      (fun i _ => sum_nonneg fun _ _ => abs_nonneg _) (mem_range.2 hr))
    exact single_le_sum (f := fun c => |(m r c).val|) (fun i _ => abs_nonneg _) (mem_range.2 hc)
  obtain ⟨M, hM⟩ := this
  obtain ⟨d, hd, -⟩ := det_backward N hu m M hM
  refine ⟨d, hd, ?_⟩
  unfold slCoerceFl
  rw [hd]
  by_cases h : d = 0
  · have hv : d.val = 0 := by rw [h]; rfl
    simp [h]
  · have hv : d.val ≠ 0 := fun e => h ((Fl.eq_zero_iff d).2 e)
    unfold rootFl
    by_cases hp : (0 : Fl ρ) < d
    · have : 0 < d.val := hp
      simp only [ne_eq, h, not_false_eq_true, if_true, if_pos hp]
      refine ⟨by simp, by simp [hv], by simp; intro; linarith⟩
    · have hn : d.val < 0 := lt_of_le_of_ne (not_lt.1 hp) hv
      by_cases h1 : N = 1
      · simp [h, hp, h1, hv]
      · simp [h, hp, h1, hv, hn]

/-- **C96** so `coerce` succeeds on every matrix all of whose neighbours within the rounding error of the determinant have a positive
determinant -/
theorem c96_coerce_succeeds (P : Fl ρ → Fl ρ → Fl ρ) (N : ℕ) (hu : ((N + 1 : ℕ) : ℝ) * ρ.u < 1) (hg : gam ρ.u N < 1)
    (m : Mat (Fl ρ)) (M : ℝ) (hM : ∀ r c, r < N → c < N → |(m r c).val| ≤ M)
    (hA : ∀ E : Matrix (Fin N) (Fin N) ℝ, (∀ r c, |E r c| ≤ detB ρ N M) → 0 < (asM N N (rmat m) + E).det) :
    ∃ m' d, slCoerceFl P N m = .ok (some m') ∧ Elim.determinant N m = some d ∧ 0 < d.val := by
  obtain ⟨d, hd, E, δ, hE, hδ, e⟩ := det_backward N hu m M hM
  have hpos : 0 < d.val := by
    rw [e]
    have := (abs_le.1 hδ).1
    exact mul_pos (hA E hE) (by linarith)
  have hlt : (0 : Fl ρ) < d := hpos
  have hne : d ≠ 0 := fun h => by rw [h] at hpos; exact lt_irrefl _ hpos
  refine ⟨fun r c => m r c / P d (Fl.of ρ (1 / (N : ℝ))), d, ?_, hd, hpos⟩
  unfold slCoerceFl
  rw [hd]
  simp only [rootFl, if_pos hne, if_pos hlt]

/-- **C96** products: `|fl(AB) - AB| ≤ γ_N |A||B|` element by element -/
theorem c96_mul (N : ℕ) (hu : (N : ℝ) * ρ.u < 1) (a b w : Mat (Fl ρ)) (r c : Fin N) :
    |asM N N (rmat (slMulFl N a b w)) r c - (asM N N (rmat a) * asM N N (rmat b)) r c| ≤
      gam ρ.u N * ∑ k : Fin N, |asM N N (rmat a) r k| * |asM N N (rmat b) k c| := by
  have := c61_mulMM N N N hu a b w r c r.2 c.2
  rw [Matrix.mul_apply]
  simp only [asM_apply, rmat]
  rw [Fin.sum_univ_eq_sum_range (fun k => (a r k).val * (b k c).val),
    Fin.sum_univ_eq_sum_range (fun k => |(a r k).val| * |(b k c).val|)]
  exact this

/-- the backward error bound of the elimination -/
noncomputable def invB (ρ : Rounding) (N : ℕ) (M : ℝ) : ℝ := gam ρ.u (3*N+1) * (2^N * (1+ρ.u)^(4*N+2) * M)

/-- **C96** residual of the inverse, for every matrix for which the elimination does not divide by zero -/
theorem c96_inverse_residual (N : ℕ) (hu : ((3 * N + 1 : ℕ) : ℝ) * ρ.u < 1) (a x X : Mat (Fl ρ))
    (h : slInvFl N a x = some X) (M : ℝ) (hM : ∀ r c, r < N → c < N → |(a r c).val| ≤ M) (r q : Fin N) :
    |(asM N N (rmat a) * asM N N (rmat X)) r q - (1 : Matrix (Fin N) (Fin N) ℝ) r q| ≤
      invB ρ N M * ∑ c : Fin N, |asM N N (rmat X) c q| := by
  obtain ⟨E, hE, he⟩ := Elim.c63_stable N N hu a _ x X h M hM q q.2
  have h2 := he r r.2
  have e1 : (1 : Matrix (Fin N) (Fin N) ℝ) r q = ((if (r : ℕ) = q then 1 else 0 : Fl ρ)).val := by
    rw [Matrix.one_apply]
    by_cases e : r = q
    · rw [if_pos e, if_pos (congrArg _ e)]; rfl
    · rw [if_neg e, if_neg (fun h => e (Fin.ext h))]; rfl
  rw [e1, ← h2, Matrix.mul_apply]
  simp only [asM_apply, rmat]
  rw [Fin.sum_univ_eq_sum_range (fun k => (a r k).val * (X k q).val), Fin.sum_univ_eq_sum_range (fun k => |(X k q).val|),
    ← sum_sub_distrib, mul_sum]
  refine le_trans (abs_sum_le_sum_abs _ _) (sum_le_sum fun c hc => ?_)
  rw [show (a r c).val * (X c q).val - ((a r c).val + E r c) * (X c q).val = -(E r c * (X c q).val) by ring, abs_neg, abs_mul]
  exact mul_le_mul_of_nonneg_right (hE r c r.2 (mem_range.1 hc)) (abs_nonneg _)

/-- **C96** `inverse` of every matrix that is not too close to a singular one: with `B` the exact inverse, `K` a bound of the absolute row sums
of `B` and `K N β < 1`, it does not divide by zero and every column is accurate to `Kβ/(1-KNβ)` of its 1-norm -/
theorem c96_inverse (N : ℕ) (hu : ((3 * N + 1 : ℕ) : ℝ) * ρ.u < 1) (a x : Mat (Fl ρ))
    (M : ℝ) (hM : ∀ r c, r < N → c < N → |(a r c).val| ≤ M)
    (B : Matrix (Fin N) (Fin N) ℝ) (hB : B * asM N N (rmat a) = 1) (K : ℝ) (hK : ∀ r, ∑ c, |B r c| ≤ K)
    (hs : K * (N * invB ρ N M) < 1) :
    ∃ X, slInvFl N a x = some X ∧ ∀ r q : Fin N, |(X r q).val - B r q| ≤
      K * invB ρ N M / (1 - K * (N * invB ρ N M)) * ∑ c, |B c q| := by
  have h0 := ρ.u_nonneg
  have h1 := ρ.u_lt_one
  rcases Nat.eq_zero_or_pos N with hz | hN
  · subst hz
    cases hX : slInvFl 0 a x with
    | some X => exact ⟨X, rfl, fun r => r.elim0⟩
    | none =>
      obtain ⟨E, z, -, ⟨c, hc, -⟩, -⟩ := Elim.c63_fails_only_near_singular 0 0 (by simpa using h1) a _ x hX M hM
      omega
  have K0 : 0 ≤ K := le_trans (sum_nonneg fun _ _ => abs_nonneg _) (hK ⟨0, hN⟩)
  have M0 : 0 ≤ M := le_trans (abs_nonneg _) (hM 0 0 hN hN)
  have g0 : 0 ≤ gam ρ.u (3*N+1) := gam_nonneg h0 h1 hu
  have b0 : 0 ≤ invB ρ N M := by unfold invB; positivity
  cases hX : slInvFl N a x with
  | none =>
    exfalso
    have hu' : ((N + 1 : ℕ) : ℝ) * ρ.u < 1 :=
      lt_of_le_of_lt (mul_le_mul_of_nonneg_right (by exact_mod_cast (by omega : N + 1 ≤ 3*N+1)) h0) hu
    obtain ⟨E, z, hE, ⟨c, hc, hz⟩, he⟩ := Elim.c63_fails_only_near_singular N N hu' a _ x hX M hM
    have hg : gam ρ.u (N+1) ≤ gam ρ.u (3*N+1) := gam_mono h0 h1 (by omega) hu
    have hE' : ∀ r c, r < N → c < N → |E r c| ≤ invB ρ N M := fun r c hr hc =>
      (hE r c hr hc).trans (mul_le_mul_of_nonneg_right hg (by positivity))
    -- z = -B E z
    have hzz : ∀ r : Fin N, z r = -∑ k : Fin N, B r k * ∑ c : Fin N, E k c * z c := by
      intro r
      have e1 : ∀ k : Fin N, ∑ c : Fin N, E k c * z c = -∑ c : Fin N, (a k c).val * z c := by
        intro k
        have := he k k.2
        rw [← Fin.sum_univ_eq_sum_range (fun c => ((a k c).val + E k c) * z c)] at this
        simp only [add_mul, sum_add_distrib] at this
        linarith
      simp only [e1, mul_neg, sum_neg_distrib, neg_neg]
      have e2 : ∑ k : Fin N, B r k * ∑ c : Fin N, (a k c).val * z c = ((B * asM N N (rmat a)).mulVec (fun c : Fin N => z c)) r := by
        rw [← Matrix.mulVec_mulVec]
        simp only [Matrix.mulVec, dotProduct, asM_apply, rmat]
      rw [e2, hB, Matrix.one_mulVec]
    have : Nonempty (Fin N) := ⟨⟨0, hN⟩⟩
    obtain ⟨i, -, hi⟩ := exists_max_image (univ : Finset (Fin N)) (fun r => |z r|) univ_nonempty
    have hpos : 0 < |z i| := lt_of_lt_of_le (abs_pos.2 hz) (hi ⟨c, hc⟩ (mem_univ _))
    have : |z i| ≤ K * (N * invB ρ N M) * |z i| := by
      conv_lhs => rw [hzz i]
      rw [abs_neg]
      refine le_trans (abs_sum_le_sum_abs _ _) ?_
      have : ∀ k : Fin N, |B i k * ∑ c : Fin N, E k c * z c| ≤ |B i k| * (N * invB ρ N M * |z i|) := by
        intro k
        rw [abs_mul]
        refine mul_le_mul_of_nonneg_left ?_ (abs_nonneg _)
        refine le_trans (abs_sum_le_sum_abs _ _) ?_
        refine le_trans (sum_le_sum (g := fun _ => invB ρ N M * |z i|) fun c _ => ?_) ?_
        · rw [abs_mul]
          exact mul_le_mul (hE' k c k.2 c.2) (hi c (mem_univ _)) (abs_nonneg _) b0
        · rw [sum_const, card_univ, Fintype.card_fin, nsmul_eq_mul]; exact le_of_eq (by ring)
      refine le_trans (sum_le_sum fun k _ => this k) ?_
      rw [← sum_mul]
      calc (∑ k, |B i k|) * (N * invB ρ N M * |z i|) ≤ K * (N * invB ρ N M * |z i|) :=
            mul_le_mul_of_nonneg_right (hK i) (by positivity)
        _ = _ := by ring
    nlinarith
  | some X =>
    refine ⟨X, rfl, ?_⟩
    intro r q
    have hres := fun s => c96_inverse_residual N hu a x X hX M hM s q
    generalize hS : ∑ c : Fin N, |asM N N (rmat X) c q| = S at hres
    have hdiff : ∀ s : Fin N, |(X s q).val - B s q| ≤ K * invB ρ N M * S := by
      intro s
      have e : (X s q).val - B s q =
          ∑ k, B s k * ((asM N N (rmat a) * asM N N (rmat X)) k q - (1 : Matrix (Fin N) (Fin N) ℝ) k q) := by
        have e1 : (B * (asM N N (rmat a) * asM N N (rmat X) - 1)) s q =
            ∑ k, B s k * ((asM N N (rmat a) * asM N N (rmat X)) k q - (1 : Matrix (Fin N) (Fin N) ℝ) k q) := by
          rw [Matrix.mul_apply]; rfl
        rw [← e1, Matrix.mul_sub, ← Matrix.mul_assoc, hB, Matrix.one_mul, Matrix.mul_one]
        rfl
      rw [e]
      refine le_trans (abs_sum_le_sum_abs _ _) ?_
      have : ∀ k : Fin N, |B s k * ((asM N N (rmat a) * asM N N (rmat X)) k q - (1 : Matrix (Fin N) (Fin N) ℝ) k q)| ≤
          |B s k| * (invB ρ N M * S) := by
        intro k
        rw [abs_mul]
        exact mul_le_mul_of_nonneg_left (hres k) (abs_nonneg _)
      refine le_trans (sum_le_sum fun k _ => this k) ?_
      rw [← sum_mul]
      have hS0 : 0 ≤ S := by rw [← hS]; exact sum_nonneg fun _ _ => abs_nonneg _
      calc (∑ k, |B s k|) * (invB ρ N M * S) ≤ K * (invB ρ N M * S) :=
            mul_le_mul_of_nonneg_right (hK s) (by positivity)
        _ = _ := by ring
    have hSB : S ≤ ∑ c, |B c q| + K * (N * invB ρ N M) * S := by
      conv_lhs => rw [← hS]
      have : ∀ c : Fin N, |asM N N (rmat X) c q| ≤ |B c q| + K * invB ρ N M * S := by
        intro c
        have h2 := hdiff c
        have h3 := abs_add_le (B c q) ((X c q).val - B c q)
        rw [show B c q + ((X c q).val - B c q) = asM N N (rmat X) c q by simp only [asM_apply, rmat]; ring] at h3
        linarith
      refine le_trans (sum_le_sum fun c _ => this c) ?_
      rw [sum_add_distrib, sum_const, card_univ, Fintype.card_fin, nsmul_eq_mul]
      exact le_of_eq (by ring)
    have hS2 : S ≤ (∑ c, |B c q|) / (1 - K * (N * invB ρ N M)) := by
      rw [le_div_iff₀ (by linarith)]; linarith
    refine le_trans (hdiff r) ?_
    calc K * invB ρ N M * S ≤ K * invB ρ N M * ((∑ c, |B c q|) / (1 - K * (N * invB ρ N M))) :=
          mul_le_mul_of_nonneg_left hS2 (by positivity)
      _ = _ := by ring

/-! ### the hypotheses hold -/
section examples
open Rounding (double)

theorem of_two : (Fl.of double 2).val = 2 := by
  have := rndNearest_int 53 (by norm_num) 2 (by norm_num)
  exact_mod_cast this
theorem of_four : (Fl.of double 4).val = 4 := by
  have := rndNearest_int 53 (by norm_num) 4 (by norm_num)
  exact_mod_cast this

/-- the matrix `2 I` in double precision -/
noncomputable def twoI : Mat (Fl double) := fun r c => if r = c then Fl.of double 2 else 0

theorem twoI_le (n : ℕ) (r c : ℕ) (_ : r < n) (_ : c < n) : |(twoI r c).val| ≤ 2 := by
  unfold twoI
  split_ifs
  · rw [of_two]; norm_num
  · rw [Fl.val_zero]; norm_num

/-- `pow` with a correctly rounded result -/
noncomputable def powRounded : Fl double → Fl double → Fl double := fun x y => Fl.of double (x.val ^ y.val)

theorem powRounded_acc : PowAcc powRounded (1/2^51) := by
  intro x y hx
  have := double.err (x.val ^ y.val)
  have hp : 0 < x.val ^ y.val := Real.rpow_pos_of_pos hx _
  rw [abs_of_pos hp, Rounding.double_u] at this
  refine this.trans (mul_le_mul_of_nonneg_right (by norm_num) hp.le)

theorem asM_twoI : asM 2 2 (rmat twoI) = !![2, 0; 0, 2] := by
  ext r c
  fin_cases r <;> fin_cases c <;> simp [asM_apply, rmat, twoI, of_two]

theorem detB_twoI : detB double 2 2 ≤ 1/1000 := by
  unfold detB gam
  rw [Rounding.double_u]
  norm_num

/-- `coerce` accepts `2 I`, and the result is within `1e-13`-ish of determinant one -/
example : ∃ m', slCoerceFl powRounded 2 twoI = .ok (some m') ∧ ∃ E : Matrix (Fin 2) (Fin 2) ℝ,
    |(asM 2 2 (rmat m') + E).det - 1| ≤ 2.5/10^13 := by
  have hu := Rounding.double_u
  obtain ⟨m', d, h1, h2, h3⟩ := c96_coerce_succeeds powRounded 2 (by rw [hu]; norm_num) (by unfold gam; rw [hu]; norm_num)
    twoI 2 (twoI_le 2) (by
      intro E hE
      have hE2 : ∀ r c, |E r c| ≤ 1/1000 := fun r c => (hE r c).trans detB_twoI
      rw [asM_twoI, Matrix.det_fin_two]
      simp only [Matrix.add_apply, Matrix.of_apply, Matrix.cons_val]
      obtain ⟨a1, a2⟩ := abs_le.1 (hE2 0 0)
      obtain ⟨b1, b2⟩ := abs_le.1 (hE2 0 1)
      obtain ⟨c1, c2⟩ := abs_le.1 (hE2 1 0)
      obtain ⟨d1, d2⟩ := abs_le.1 (hE2 1 1)
      change 0 < (2 + E 0 0) * (2 + E 1 1) - (0 + E 0 1) * (0 + E 1 0)
      nlinarith)
  have hd4 : d.val = 4 := by
    unfold Elim.determinant at h2
    rw [if_pos rfl] at h2
    have := Option.some.inj h2
    rw [← this]
    simp only [twoI, Fl.val_sub, Fl.val_mul, of_two, if_pos, Fl.val_zero]
    have e4 := of_four
    simp only [Fl.of] at e4
    norm_num [Fl.rnd_zero, e4, of_two]
  obtain ⟨m2, p, k1, -, -, E, -, k3⟩ := c96_coerce_double powRounded powRounded_acc 2 (by norm_num) (by norm_num) twoI 2 (twoI_le 2) d h2 h3
    (by
      rw [hd4, abs_of_nonneg (Real.log_nonneg (by norm_num))]
      have := Real.log_le_sub_one_of_pos (show (0:ℝ) < 4 by norm_num)
      linarith)
  exact ⟨m2, k1, E, k3⟩

/-- `inverse` succeeds on `2 I` -/
example (x : Mat (Fl double)) : ∃ X, slInvFl 2 twoI x = some X ∧ ∀ r q : Fin 2,
    |(X r q).val - (!![1/2, 0; 0, 1/2] : Matrix (Fin 2) (Fin 2) ℝ) r q| ≤ 1/10^10 := by
  have hu := Rounding.double_u
  have hb : invB double 2 2 ≤ 1/10^11 := by
    unfold invB gam
    rw [hu]
    norm_num
  have hb0 : 0 ≤ invB double 2 2 := by
    unfold invB gam
    rw [hu]
    norm_num
  obtain ⟨X, h1, h2⟩ := c96_inverse 2 (by rw [hu]; norm_num) twoI x 2 (twoI_le 2) !![1/2, 0; 0, 1/2]
    (by
      rw [asM_twoI]
      ext r c
      fin_cases r <;> fin_cases c <;> simp [Matrix.mul_apply, Fin.sum_univ_two])
    (1/2) (by intro r; fin_cases r <;> norm_num [Fin.sum_univ_two])
    (by push_cast; linarith)
  refine ⟨X, h1, fun r q => (h2 r q).trans ?_⟩
  generalize invB double 2 2 = β at *
  have hs : ∑ c, |(!![1/2, 0; 0, 1/2] : Matrix (Fin 2) (Fin 2) ℝ) c q| = 1/2 := by
    fin_cases q <;> norm_num [Fin.sum_univ_two]
  rw [hs]
  have : 1/2 * β / (1 - 1/2 * ((2:ℕ) * β)) ≤ 1/10^11 := by
    push_cast
    rw [div_le_iff₀ (by linarith)]
    nlinarith
  linarith

/-- `[[0,1],[1,0]]`: determinant `-1`, the result is a matrix of NaNs; the zero matrix: the assertion fails -/
example (P : Fl double → Fl double → Fl double) :
    slCoerceFl P 2 (fun r c => if r = c then 0 else 1) = .ok none ∧ slCoerceFl P 2 (fun _ _ => 0) = .abort := by
  have e1 : ((0:Fl double) * 0 - 1 * 1).val = -1 := by
    simp only [Fl.val_sub, Fl.val_mul, Fl.val_zero, Fl.val_one]
    norm_num [Fl.rnd_zero, double.one, double.neg]
  have e0 : ((0:Fl double) * 0 - 0 * 0).val = 0 := by
    simp only [Fl.val_sub, Fl.val_mul, Fl.val_zero]
    norm_num [Fl.rnd_zero]
  have hu := Rounding.double_u
  constructor
  · obtain ⟨d, h1, -, -, h4⟩ := c96_coerce_outcomes P 2 (by rw [hu]; norm_num) (fun r c => if r = c then 0 else 1)
    refine h4.2 ⟨?_, by norm_num⟩
    unfold Elim.determinant at h1
    rw [if_pos rfl] at h1
    rw [← Option.some.inj h1]
    norm_num [e1]
  · obtain ⟨d, h1, -, h4, -⟩ := c96_coerce_outcomes P 2 (by rw [hu]; norm_num) (fun _ _ => 0)
    refine h4.2 ?_
    unfold Elim.determinant at h1
    rw [if_pos rfl] at h1
    rw [← Option.some.inj h1]
    exact e0

end examples
end TooN.SLF
