import Verif.Props.FloatSL2
import Verif.Proof.DetNear
/-!
# C96: how far the determinant of an SL(N) drifts
-/
set_option linter.unusedSectionVars false
namespace TooN.SLF
open Finset
open scoped Classical
variable {ρ : Rounding}

/-- the matrix stored in an `SL<N>` -/
noncomputable abbrev val (N : ℕ) (a : Mat (Fl ρ)) : Matrix (Fin N) (Fin N) ℝ := asM N N (rmat a)

/-- `A` has an inverse, and the absolute row sums of `A` and of its inverse are at most `L`, `K` with `L K ≤ κ`: the condition number in the
maximum norm is at most `κ` -/
def CondLe {N : ℕ} (A : Matrix (Fin N) (Fin N) ℝ) (κ : ℝ) : Prop :=
  ∃ (B : Matrix (Fin N) (Fin N) ℝ) (L K : ℝ), B * A = 1 ∧ (∀ r, ∑ c, |A r c| ≤ L) ∧ (∀ r, ∑ c, |B r c| ≤ K) ∧ 0 ≤ L ∧ 0 ≤ K ∧ L * K ≤ κ

theorem rows_mul {N : ℕ} {A B : Matrix (Fin N) (Fin N) ℝ} {a b : ℝ} (hb : 0 ≤ b) (hA : ∀ r, ∑ c, |A r c| ≤ a)
    (hB : ∀ r, ∑ c, |B r c| ≤ b) (r : Fin N) : ∑ c, |(A * B) r c| ≤ a * b ∧ ∑ c, ∑ k, |A r k| * |B k c| ≤ a * b := by
  have h2 : ∑ c, ∑ k, |A r k| * |B k c| ≤ a * b := by
    rw [sum_comm]
    refine (sum_le_sum (g := fun k => |A r k| * b) fun k _ => ?_).trans ?_
    · rw [← mul_sum]; exact mul_le_mul_of_nonneg_left (hB k) (abs_nonneg _)
    · rw [← sum_mul]; exact mul_le_mul_of_nonneg_right (hA r) hb
  refine ⟨(sum_le_sum fun c _ => ?_).trans h2, h2⟩
  rw [Matrix.mul_apply]
  exact (abs_sum_le_sum_abs _ _).trans (le_of_eq (sum_congr rfl fun k _ => abs_mul _ _))

/-- **C96** the determinant of a product: `det fl(ab) = det a · det b · τ` with `(1-ε)^N ≤ τ ≤ (1+ε)^N`, `ε = γ_N κ(a) κ(b)` -/
theorem c96_mul_det (N : ℕ) (hu : (N : ℝ) * ρ.u < 1) (a b w : Mat (Fl ρ)) (κa κb ε : ℝ) (ha : CondLe (val N a) κa) (hb : CondLe (val N b) κb)
    (hε : gam ρ.u N * (κa * κb) ≤ ε) (hε1 : ε < 1) :
    ∃ τ, (1 - ε)^N ≤ τ ∧ τ ≤ (1 + ε)^N ∧ (val N (slMulFl N a b w)).det = (val N a).det * (val N b).det * τ := by
  have h0 := ρ.u_nonneg
  have h1 := ρ.u_lt_one
  obtain ⟨Ai, La, Ka, hAi, hLa, hKa, La0, Ka0, hκa⟩ := ha
  obtain ⟨Bi, Lb, Kb, hBi, hLb, hKb, Lb0, Kb0, hκb⟩ := hb
  have g0 : 0 ≤ gam ρ.u N := gam_nonneg h0 h1 hu
  have hmul : ∀ r c, |val N (slMulFl N a b w) r c - (val N a * val N b) r c| ≤
      gam ρ.u N * ∑ k, |val N a r k| * |val N b k c| := c96_mul N hu a b w
  generalize val N (slMulFl N a b w) = C at *
  generalize hA : val N a = A at *
  generalize hB : val N b = B at *
  have hA' : A * Ai = 1 := mul_eq_one_comm.1 hAi
  have hB' : B * Bi = 1 := mul_eq_one_comm.1 hBi
  have hC : C = A * B * (1 + Bi * (Ai * (C - A * B))) := by
    rw [mul_add, mul_one, show A * B * (Bi * (Ai * (C - A * B))) = A * (B * Bi) * (Ai * (C - A * B)) by
      simp only [Matrix.mul_assoc], hB', mul_one, ← Matrix.mul_assoc, hA', one_mul]
    abel
  have hF : ∀ r, ∑ c, |(C - A * B) r c| ≤ gam ρ.u N * (La * Lb) := by
    intro r
    refine (sum_le_sum fun c _ => hmul r c).trans ?_
    rw [← mul_sum]
    exact mul_le_mul_of_nonneg_left (rows_mul Lb0 hLa hLb r).2 g0
  have hF0 : 0 ≤ gam ρ.u N * (La * Lb) := by positivity
  have h3 := fun r => (rows_mul hF0 hKa hF r).1
  have h4 := fun r => (rows_mul (by positivity) hKb h3 r).1
  have hκ : Kb * (Ka * (gam ρ.u N * (La * Lb))) ≤ ε := by
    have : (La * Ka) * (Lb * Kb) ≤ κa * κb := mul_le_mul hκa hκb (by positivity) (le_trans (by positivity) hκa)
    calc Kb * (Ka * (gam ρ.u N * (La * Lb))) = gam ρ.u N * ((La * Ka) * (Lb * Kb)) := by ring
      _ ≤ gam ρ.u N * (κa * κb) := mul_le_mul_of_nonneg_left this g0
      _ ≤ ε := hε
  have ε0 : 0 ≤ ε := le_trans (by positivity) hκ
  obtain ⟨k1, k2⟩ := det_near_one (Bi * (Ai * (C - A * B))) ε ε0 (fun r => (h4 r).trans hκ) hε1
  refine ⟨_, k1, k2, ?_⟩
  conv_lhs => rw [hC]
  rw [Matrix.det_mul, Matrix.det_mul]

/-- **C96** a chain of products `A₀ A₁ ⋯ A_k` formed by `*=`, as long as no product is too ill conditioned: the determinant is the product
of the determinants up to a factor between `(1-ε)^{Nk}` and `(1+ε)^{Nk}` -/
theorem c96_chain (N : ℕ) (hu : (N : ℝ) * ρ.u < 1) (A W : ℕ → Mat (Fl ρ)) (ε : ℝ) (hε0 : 0 ≤ ε) (hε1 : ε < 1) (k : ℕ)
    (hκ : ∀ j, j < k → ∃ κ κ', CondLe (val N (slChain N A W j)) κ ∧ CondLe (val N (A (j + 1))) κ' ∧ gam ρ.u N * (κ * κ') ≤ ε) :
    ∃ τ, (1 - ε)^(N * k) ≤ τ ∧ τ ≤ (1 + ε)^(N * k) ∧
      (val N (slChain N A W k)).det = (∏ j ∈ range (k + 1), (val N (A j)).det) * τ := by
  induction k with
  | zero => exact ⟨1, by simp, by simp, by simp [slChain]⟩
  | succ k ih =>
    obtain ⟨τ, h1, h2, h3⟩ := ih fun j hj => hκ j (by omega)
    obtain ⟨κ, κ', c1, c2, c3⟩ := hκ k (by omega)
    obtain ⟨σ, g1, g2, g3⟩ := c96_mul_det N hu (slChain N A W k) (A (k + 1)) (W k) κ κ' ε c1 c2 c3 hε1
    have p1 : 0 ≤ (1 - ε)^N := pow_nonneg (by linarith) _
    have p2 : 0 ≤ (1 - ε)^(N * k) := pow_nonneg (by linarith) _
    refine ⟨τ * σ, ?_, ?_, ?_⟩
    · rw [Nat.mul_succ, pow_add]; exact mul_le_mul h1 g1 p1 (p2.trans h1)
    · rw [Nat.mul_succ, pow_add]; exact mul_le_mul h2 g2 (p1.trans g1) (pow_nonneg (by linarith) _)
    · rw [slChain, g3, h3, prod_range_succ _ (k + 1)]; ring

/-- **C96** the determinant of the inverse: `det a · det a⁻¹ = τ` with `(1-ε)^N ≤ τ ≤ (1+ε)^N`, `ε = β N L` for `L` the row sums of the result -/
theorem c96_inverse_det (N : ℕ) (hu : ((3 * N + 1 : ℕ) : ℝ) * ρ.u < 1) (a x X : Mat (Fl ρ))
    (h : slInvFl N a x = some X) (M : ℝ) (hM : ∀ r c, r < N → c < N → |(a r c).val| ≤ M) (L ε : ℝ)
    (hL : ∀ r, ∑ c, |val N X r c| ≤ L) (hε : invB ρ N M * (N * L) ≤ ε) (hε1 : ε < 1) :
    (1 - ε)^N ≤ (val N a).det * (val N X).det ∧ (val N a).det * (val N X).det ≤ (1 + ε)^N := by
  have h0 := ρ.u_nonneg
  have h1 := ρ.u_lt_one
  rcases Nat.eq_zero_or_pos N with hz | hN
  · subst hz; simp
  have M0 : 0 ≤ M := le_trans (abs_nonneg _) (hM 0 0 hN hN)
  have g0 : 0 ≤ gam ρ.u (3*N+1) := gam_nonneg h0 h1 hu
  have b0 : 0 ≤ invB ρ N M := by unfold invB; positivity
  have L0 : 0 ≤ L := le_trans (sum_nonneg fun _ _ => abs_nonneg _) (hL ⟨0, hN⟩)
  have hres := c96_inverse_residual N hu a x X h M hM
  have hrow : ∀ r, ∑ q, |(val N a * val N X - 1) r q| ≤ ε := by
    intro r
    refine (sum_le_sum fun q _ => hres r q).trans ?_
    rw [← mul_sum, sum_comm]
    refine (mul_le_mul_of_nonneg_left ?_ b0).trans hε
    refine (sum_le_sum fun c _ => hL c).trans ?_
    rw [sum_const, card_univ, Fintype.card_fin, nsmul_eq_mul]
  have := det_near_one (val N a * val N X - 1) ε (le_trans (by positivity) hε) hrow hε1
  rwa [add_sub_cancel, Matrix.det_mul] at this

/-- **C96** so the determinant of what `coerce` stores: `det m' · τ = exp ℓ` with `(1-ε)^N ≤ τ ≤ (1+ε)^N`, where `ε` bounds `K N e`, `K` the
row sums of the exact inverse of the stored matrix and `e` the perturbation of `c96_coerce` -/
theorem c96_coerce_det (P : Fl ρ → Fl ρ → Fl ρ) (η : ℝ) (hP : PowAcc P η) (hη : η ≤ 1/2) (N : ℕ) (hN : 0 < N)
    (hu : ((N + 1 : ℕ) : ℝ) * ρ.u < 1) (hg : gam ρ.u N ≤ 1/2)
    (m : Mat (Fl ρ)) (M : ℝ) (hM : ∀ r c, r < N → c < N → |(m r c).val| ≤ M)
    (d : Fl ρ) (hd : Elim.determinant N m = some d) (hpos : 0 < d.val) :
    ∃ m' p, slCoerceFl P N m = .ok (some m') ∧ 0 < p ∧
      ∀ (B : Matrix (Fin N) (Fin N) ℝ) (K ε : ℝ), B * val N m' = 1 → (∀ r, ∑ c, |B r c| ≤ K) →
        K * (N * ((ρ.u * M + detB ρ N M) / p)) ≤ ε → ε < 1 →
        ∃ τ ℓ, (1 - ε)^N ≤ τ ∧ τ ≤ (1 + ε)^N ∧
          |ℓ| ≤ 2 * gam ρ.u N + ρ.u * |Real.log d.val| + 2 * N * η ∧ (val N m').det * τ = Real.exp ℓ := by
  obtain ⟨m', p, h1, h2, -, -, E, ℓ, h5, h6, h7⟩ := c96_coerce P η hP hη N hN hu hg m M hM d hd hpos
  refine ⟨m', p, h1, h2, fun B K ε hB hK hε hε1 => ?_⟩
  change (val N m' + E).det = _ at h7
  generalize val N m' = A at *
  have hA : A * B = 1 := mul_eq_one_comm.1 hB
  have e0 : 0 ≤ (ρ.u * M + detB ρ N M) / p := le_trans (abs_nonneg _) (h5 ⟨0, hN⟩ ⟨0, hN⟩)
  generalize (ρ.u * M + detB ρ N M) / p = e at *
  have K0 : 0 ≤ K := le_trans (sum_nonneg fun _ _ => abs_nonneg _) (hK ⟨0, hN⟩)
  have hErow : ∀ r, ∑ c, |E r c| ≤ N * e := by
    intro r
    refine (sum_le_sum fun c _ => h5 r c).trans ?_
    rw [sum_const, card_univ, Fintype.card_fin, nsmul_eq_mul]
  have hrow := fun r => (rows_mul (by positivity) hK hErow r).1
  obtain ⟨k1, k2⟩ := det_near_one (B * E) ε (le_trans (by positivity) hε) (fun r => (hrow r).trans hε) hε1
  refine ⟨_, ℓ, k1, k2, h6, ?_⟩
  rw [← Matrix.det_mul, mul_add, mul_one, ← Matrix.mul_assoc, hA, one_mul, h7]

theorem gam_comp {u : ℝ} (h0 : 0 ≤ u) (N : ℕ) (h : ((2 * N : ℕ) : ℝ) * u < 1) :
    gam u N * (1 + gam u N) + gam u N ≤ gam u (2 * N) := by
  unfold gam
  push_cast at *
  have hx : 0 ≤ (N:ℝ) * u := by positivity
  generalize hN : (N:ℝ) * u = x at *
  have e : 2 * (N:ℝ) * u = 2 * x := by rw [← hN]; ring
  rw [e] at *
  have e2 : x / (1 - x) * (1 + x / (1 - x)) + x / (1 - x) = (2 * x - x^2) / (1 - x)^2 := by
    have : 1 - x ≠ 0 := by linarith
    field_simp
    ring
  rw [e2, div_le_div_iff₀ (by nlinarith) (by linarith)]
  nlinarith [mul_nonneg hx hx, mul_nonneg (mul_nonneg hx hx) hx]

/-- two-step rounding of `Σ_k a_k (Σ_j b_kj v_j)` -/
theorem two_step {N : ℕ} {g : ℝ} (a : ℕ → ℝ) (b : ℕ → ℕ → ℝ) (v : ℕ → ℝ) (y : ℕ → ℝ) (r : ℝ)
    (hg : 0 ≤ g) (hy : ∀ k, k < N → |y k - ∑ j ∈ range N, b k j * v j| ≤ g * ∑ j ∈ range N, |b k j| * |v j|)
    (hr : |r - ∑ k ∈ range N, a k * y k| ≤ g * ∑ k ∈ range N, |a k| * |y k|) :
    |r - ∑ k ∈ range N, ∑ j ∈ range N, a k * b k j * v j| ≤
      (g * (1 + g) + g) * ∑ k ∈ range N, ∑ j ∈ range N, |a k| * |b k j| * |v j| := by
  have hs : ∀ k, ∑ j ∈ range N, |a k| * |b k j| * |v j| = |a k| * ∑ j ∈ range N, |b k j| * |v j| := fun k => by
    rw [mul_sum]; exact sum_congr rfl fun j _ => by ring
  have hs' : ∀ k, ∑ j ∈ range N, a k * b k j * v j = a k * ∑ j ∈ range N, b k j * v j := fun k => by
    rw [mul_sum]; exact sum_congr rfl fun j _ => by ring
  rw [sum_congr rfl fun k _ => hs k, sum_congr rfl fun k _ => hs' k]
  have hyabs : ∀ k, k < N → |y k| ≤ (1 + g) * ∑ j ∈ range N, |b k j| * |v j| := by
    intro k hk
    have h1 := abs_add_le (y k - ∑ j ∈ range N, b k j * v j) (∑ j ∈ range N, b k j * v j)
    rw [sub_add_cancel] at h1
    have h2 : |∑ j ∈ range N, b k j * v j| ≤ ∑ j ∈ range N, |b k j| * |v j| :=
      (abs_sum_le_sum_abs _ _).trans (le_of_eq (sum_congr rfl fun j _ => abs_mul _ _))
    have := hy k hk
    linarith
  have h1 : g * ∑ k ∈ range N, |a k| * |y k| ≤ g * (1 + g) * ∑ k ∈ range N, |a k| * ∑ j ∈ range N, |b k j| * |v j| := by
    rw [mul_assoc, mul_sum (range N) _ (1 + g)]
    refine mul_le_mul_of_nonneg_left (sum_le_sum fun k hk => ?_) hg
    have := mul_le_mul_of_nonneg_left (hyabs k (mem_range.1 hk)) (abs_nonneg (a k))
    linarith
  have h2 : |∑ k ∈ range N, a k * y k - ∑ k ∈ range N, a k * ∑ j ∈ range N, b k j * v j| ≤
      g * ∑ k ∈ range N, |a k| * ∑ j ∈ range N, |b k j| * |v j| := by
    rw [← sum_sub_distrib, mul_sum]
    refine (abs_sum_le_sum_abs _ _).trans (sum_le_sum fun k hk => ?_)
    rw [← mul_sub, abs_mul]
    have := mul_le_mul_of_nonneg_left (hy k (mem_range.1 hk)) (abs_nonneg (a k))
    linarith
  have h3 := abs_add_le (r - ∑ k ∈ range N, a k * y k)
    (∑ k ∈ range N, a k * y k - ∑ k ∈ range N, a k * ∑ j ∈ range N, b k j * v j)
  rw [sub_add_sub_cancel] at h3
  rw [add_mul]
  linarith

/-- **C96** acting on vectors is a group action up to rounding: `(a*b)*v` and `a*(b*v)` both have the elementwise error
`γ_{2N} |a||b||v|` -/
theorem c96_action (N : ℕ) (hu : ((2 * N : ℕ) : ℝ) * ρ.u < 1) (a b w : Mat (Fl ρ)) (v u u' : Vec (Fl ρ)) (i : ℕ) (hi : i < N) :
    |(slActFl N (slMulFl N a b w) v u i).val - ∑ k ∈ range N, ∑ j ∈ range N, (a i k).val * (b k j).val * (v j).val| ≤
      gam ρ.u (2 * N) * ∑ k ∈ range N, ∑ j ∈ range N, |(a i k).val| * |(b k j).val| * |(v j).val| ∧
    |(slActFl N a (slActFl N b v u') u i).val - ∑ k ∈ range N, ∑ j ∈ range N, (a i k).val * (b k j).val * (v j).val| ≤
      gam ρ.u (2 * N) * ∑ k ∈ range N, ∑ j ∈ range N, |(a i k).val| * |(b k j).val| * |(v j).val| := by
  have h0 := ρ.u_nonneg
  have h1 := ρ.u_lt_one
  have hN : (N:ℝ) * ρ.u < 1 := lt_of_le_of_lt (mul_le_mul_of_nonneg_right (by exact_mod_cast (by omega : N ≤ 2 * N)) h0) hu
  have g0 := gam_nonneg h0 h1 hN
  have hg := gam_comp h0 N hu
  have hS : 0 ≤ ∑ k ∈ range N, ∑ j ∈ range N, |(a i k).val| * |(b k j).val| * |(v j).val| :=
    sum_nonneg fun _ _ => sum_nonneg fun _ _ => by positivity
  have act : ∀ (m : Mat (Fl ρ)) (x z : Vec (Fl ρ)) (r : ℕ), r < N →
      |(slActFl N m x z r).val - ∑ j ∈ range N, (m r j).val * (x j).val| ≤
        gam ρ.u N * ∑ j ∈ range N, |(m r j).val| * |(x j).val| := by
    intro m x z r hr
    have := (c61_mulMV N N hN hN m x x z).1 r hr
    simp only [abs_mul] at this
    exact this
  constructor
  · have hA := act (slMulFl N a b w) v u i hi
    have hM := fun c (hc : c < N) => c61_mulMM N N N hN a b w i c hi hc
    generalize (slActFl N (slMulFl N a b w) v u i).val = R at *
    -- the same estimate with the roles exchanged
    have := two_step (N := N) (g := gam ρ.u N) (fun j => (v j).val) (fun j k => (b k j).val) (fun k => (a i k).val)
      (fun j => (slMulFl N a b w i j).val) R g0
      (fun j hj => by
        have := hM j hj
        simp only [mul_comm (b _ j).val, mul_comm |(b _ j).val|]
        exact this)
      (by simpa only [mul_comm] using hA)
    rw [sum_comm] at this
    rw [sum_comm (f := fun k j => |(v k).val| * |(b j k).val| * |(a i j).val|)] at this
    have e1 : ∑ y ∈ range N, ∑ x ∈ range N, (v x).val * (b y x).val * (a i y).val =
        ∑ k ∈ range N, ∑ j ∈ range N, (a i k).val * (b k j).val * (v j).val :=
      sum_congr rfl fun k _ => sum_congr rfl fun j _ => by ring
    have e2 : ∑ y ∈ range N, ∑ x ∈ range N, |(v x).val| * |(b y x).val| * |(a i y).val| =
        ∑ k ∈ range N, ∑ j ∈ range N, |(a i k).val| * |(b k j).val| * |(v j).val| :=
      sum_congr rfl fun k _ => sum_congr rfl fun j _ => by ring
    rw [e1, e2] at this
    exact this.trans (mul_le_mul_of_nonneg_right hg hS)
  · have := two_step (N := N) (g := gam ρ.u N) (fun k => (a i k).val) (fun k j => (b k j).val) (fun j => (v j).val)
      (fun k => (slActFl N b v u' k).val) (slActFl N a (slActFl N b v u') u i).val g0
      (fun k hk => act b v u' k hk) (act a (slActFl N b v u') u i hi)
    exact this.trans (mul_le_mul_of_nonneg_right hg hS)

/-- **C96** multiplication from the left: `v * a` -/
theorem c96_action_left (N : ℕ) (hu : (N : ℝ) * ρ.u < 1) (a : Mat (Fl ρ)) (v u : Vec (Fl ρ)) (j : ℕ) (hj : j < N) :
    |(slActLFl N v a u j).val - ∑ i ∈ range N, (v i).val * (a i j).val| ≤
      gam ρ.u N * ∑ i ∈ range N, |(v i).val * (a i j).val| :=
  (c61_mulMV N N hu hu a v v u).2 j hj

/-- **C96** in exact arithmetic (`u = 0`) products are products, chains are products in the order written, `a * a.inverse()` is the identity
and `coerce` with an exact `pow` stores a matrix of determinant one -/
theorem c96_exact (hu : ρ.u = 0) (N : ℕ) (hN : 0 < N) (A W : ℕ → Mat (Fl ρ)) (a b w x X : Mat (Fl ρ)) :
    val N (slMulFl N a b w) = val N a * val N b ∧
    (∀ k, val N (slChain N A W k) = ((List.range (k + 1)).map fun j => val N (A j)).prod) ∧
    (slInvFl N a x = some X → val N a * val N X = 1) ∧
    ∀ P : Fl ρ → Fl ρ → Fl ρ, PowAcc P 0 → ∀ d, Elim.determinant N a = some d → 0 < d.val →
      d.val = (val N a).det ∧ ∃ m', slCoerceFl P N a = .ok (some m') ∧ (val N m').det = 1 ∧
        ∀ r c : Fin N, val N m' r c = val N a r c / (val N a).det ^ (1 / (N : ℝ)) := by
  have g : ∀ n, gam ρ.u n = 0 := fun n => by unfold gam; rw [hu]; simp
  have hM : ∃ M : ℝ, ∀ r c, r < N → c < N → |(a r c).val| ≤ M := by
    refine ⟨∑ r ∈ range N, ∑ c ∈ range N, |(a r c).val|, fun r c hr hc => ?_⟩
    refine le_trans ?_ (single_le_sum (f := fun r => ∑ c ∈ range N, |(a r c).val|)
      (fun i _ => sum_nonneg fun _ _ => abs_nonneg _) (mem_range.2 hr))
    exact single_le_sum (f := fun c => |(a r c).val|) (fun i _ => abs_nonneg _) (mem_range.2 hc)
  obtain ⟨M, hM⟩ := hM
  have hmul : ∀ a b w : Mat (Fl ρ), val N (slMulFl N a b w) = val N a * val N b := by
    intro a b w
    ext r c
    have := c96_mul N (by rw [hu]; simp) a b w r c
    rw [g, zero_mul] at this
    exact sub_eq_zero.1 (abs_nonpos_iff.1 this)
  refine ⟨hmul a b w, ?_, ?_, ?_⟩
  · intro k
    induction k with
    | zero => simp [slChain]
    | succ k ih => rw [slChain, hmul, ih, List.range_succ (n := k + 1), List.map_append, List.prod_append]; simp
  · intro h
    ext r q
    have := c96_inverse_residual N (by rw [hu]; simp) a x X h M hM r q
    unfold invB at this
    rw [g, zero_mul, zero_mul] at this
    exact sub_eq_zero.1 (abs_nonpos_iff.1 this)
  · intro P hP d hd hpos
    obtain ⟨d', hd', E₀, δ, hE₀, hδ, e⟩ := det_backward N (by rw [hu]; simp) a M hM
    have : d' = d := Option.some.inj (hd'.symm.trans hd)
    subst this
    have hb : detB ρ N M = 0 := by unfold detB; rw [g, zero_mul]
    have z : ∀ (E : Matrix (Fin N) (Fin N) ℝ), (∀ r c, |E r c| ≤ 0) → E = 0 := fun E hE => by
      ext r c; exact abs_nonpos_iff.1 (hE r c)
    rw [hb] at hE₀
    rw [g] at hδ
    rw [z E₀ hE₀, abs_nonpos_iff.1 hδ, add_zero, add_zero, mul_one] at e
    obtain ⟨m', p, h1, h2, h3, h4, E, ℓ, h5, h6, h7⟩ := c96_coerce P 0 hP (by norm_num) N hN (by rw [hu]; simp)
      (by rw [g]; norm_num) a M hM d' hd hpos
    rw [hb, hu, zero_mul, add_zero, zero_div] at h5
    rw [g, hu] at h6
    rw [hu] at h3 h4
    have hl : ℓ = 0 := abs_nonpos_iff.1 (by simpa using h6)
    rw [z E h5, hl, add_zero, Real.exp_zero] at h7
    refine ⟨e, m', h1, h7, fun r c => ?_⟩
    have hp : p = d'.val ^ (1 / (N:ℝ)) := sub_eq_zero.1 (abs_nonpos_iff.1 (by simpa using h3))
    have hm := h4 r c
    rw [zero_mul] at hm
    have := sub_eq_zero.1 (abs_nonpos_iff.1 hm)
    rw [hp, e] at this
    exact this

/-- the conditions hold: `2 I` has condition number 1, and a product of two such matrices has `ε = 1e-15` -/
example (w : Mat (Fl Rounding.double)) : ∃ τ, (1 - 1/10^15)^2 ≤ τ ∧ τ ≤ (1 + 1/10^15)^2 ∧
    (val 2 (slMulFl 2 twoI twoI w)).det = (val 2 twoI).det * (val 2 twoI).det * τ := by
  have hc : CondLe (val 2 twoI) 1 := by
    refine ⟨!![1/2, 0; 0, 1/2], 2, 1/2, ?_, ?_, ?_, by norm_num, by norm_num, by norm_num⟩
    · rw [val, asM_twoI]
      ext r c
      fin_cases r <;> fin_cases c <;> simp [Matrix.mul_apply, Fin.sum_univ_two]
    · intro r; rw [val, asM_twoI]; fin_cases r <;> norm_num [Fin.sum_univ_two]
    · intro r; fin_cases r <;> norm_num [Fin.sum_univ_two]
  refine c96_mul_det 2 (by rw [Rounding.double_u]; norm_num) twoI twoI w 1 1 _ hc hc ?_ (by norm_num)
  unfold gam
  rw [Rounding.double_u]
  norm_num

end TooN.SLF
