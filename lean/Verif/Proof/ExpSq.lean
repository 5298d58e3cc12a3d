import Verif.Proof.ExpXF
import Verif.Model.ExpRun
/-!
# Scaling and squaring in a floating-point format
-/
set_option linter.unusedSectionVars false
namespace TooN.Special
open TooN.Ops Finset TooN.MatFun
open scoped Classical Nat
open scoped Matrix.Norms.Operator

variable {G : Grid} {u η α : ℝ} {n N : ℕ}

/-- the exponentials of close matrices are close -/
theorem exp_perturb (x y : Sq n) (μ : ℝ) (hx : ‖x‖ ≤ μ) (hy : ‖y‖ ≤ μ) :
    ‖NormedSpace.exp x - NormedSpace.exp y‖ ≤ ‖x - y‖ * Real.exp μ := by
  have hs : ∀ z : Sq n, HasSum (fun k => ((k ! : ℝ)⁻¹) • z ^ k) (NormedSpace.exp z) :=
    fun z => NormedSpace.exp_series_hasSum_exp' (𝕂 := ℝ) z
  have h0 := (hasSum_nat_add_iff' 1).2 ((hs x).sub (hs y))
  have e0 : NormedSpace.exp x - NormedSpace.exp y - ∑ i ∈ range 1, (((i ! : ℝ)⁻¹) • x ^ i - ((i ! : ℝ)⁻¹) • y ^ i) =
      NormedSpace.exp x - NormedSpace.exp y := by simp
  rw [e0] at h0
  have hm : HasSum (fun k : ℕ => ‖x - y‖ * ((k ! : ℝ)⁻¹ * μ ^ k)) (‖x - y‖ * Real.exp μ) := by
    have := NormedSpace.exp_series_hasSum_exp' (𝕂 := ℝ) μ
    rw [← Real.exp_eq_exp_ℝ] at this
    exact this.mul_left _
  refine h0.norm_le_of_bounded hm fun k => ?_
  rw [← smul_sub, norm_smul, Real.norm_eq_abs, abs_of_nonneg (by positivity)]
  have h := norm_pow_sub_pow_le norm_one_le x y μ hx hy k
  have : (((k + 1) ! : ℝ))⁻¹ * ‖x ^ (k + 1) - y ^ (k + 1)‖ ≤ (((k + 1) ! : ℝ))⁻¹ * ((k + 1) * μ ^ k * ‖x - y‖) :=
    mul_le_mul_of_nonneg_left h (by positivity)
  refine le_trans this (le_of_eq ?_)
  rw [Nat.factorial_succ]
  push_cast
  field_simp

theorem norm_exp_le (x : Sq n) : ‖NormedSpace.exp x‖ ≤ Real.exp ‖x‖ := by
  have := exp_tail norm_one_le x 0
  simp only [Finset.range_zero, Finset.sum_empty, sub_zero, Nat.factorial_zero, Nat.cast_one, inv_one, one_smul, pow_zero] at this
  calc _ ≤ ‖(1 : Sq n)‖ * Real.exp ‖x‖ := this
    _ ≤ 1 * Real.exp ‖x‖ := mul_le_mul_of_nonneg_right norm_one_le (Real.exp_pos _).le
    _ = _ := one_mul _

/-- a product of matrices -/
theorem mul_err (F : Fmt G u η) (A B w : Mat (XF G)) (a b : Sq n) (hA : IsM A a) (hB : IsM B b) (hP : (1 + u) ^ n ≤ 2)
    (hbig : (1 + u) ^ (n + 1) * (‖a‖ * ‖b‖) + n * η ≤ G.big) :
    ∃ c : Sq n, IsM (mulMM n n n A B w) c ∧ ‖c - a * b‖ ≤ ((1 + u) ^ (n + 1) - 1) * (‖a‖ * ‖b‖) + n * n * η := by
  have u0 := F.u0
  have he := F.eta0
  have hn0 : (0:ℝ) ≤ n := Nat.cast_nonneg n
  have hg : 0 ≤ (1 + u) ^ (n + 1) - 1 := by
    have : (1:ℝ) ≤ (1 + u) ^ (n + 1) := one_le_pow₀ (by linarith)
    linarith
  have htiny : n * (1 + u) ^ n * (η / 2) ≤ n * η := by
    have : n * (1 + u) ^ n * (η / 2) ≤ n * 2 * (η / 2) := by gcongr
    linarith
  have key : ∀ i j : Fin n, ∃ s, Is (dot n (A i) (fun l => B l j)) s ∧
      |s - ∑ l, a i l * b l j| ≤ ((1 + u) ^ (n + 1) - 1) * ∑ l, |a i l * b l j| + n * η := by
    intro i j
    have e1 : ∑ l ∈ range n, (fun l => if h : l < n then a i ⟨l, h⟩ else 0) l * (fun l => if h : l < n then b ⟨l, h⟩ j else 0) l = ∑ l, a i l * b l j := by
      rw [Finset.sum_range]
      exact sum_congr rfl fun l _ => by simp
    have e2 : ∑ l ∈ range n, |(fun l => if h : l < n then a i ⟨l, h⟩ else 0) l * (fun l => if h : l < n then b ⟨l, h⟩ j else 0) l| = ∑ l, |a i l * b l j| := by
      rw [Finset.sum_range]
      exact sum_congr rfl fun l _ => by simp
    obtain ⟨s, h1, h2⟩ := F.dot n (A i) (fun l => B l j) (fun l => if h : l < n then a i ⟨l, h⟩ else 0)
      (fun l => if h : l < n then b ⟨l, h⟩ j else 0)
      (fun l hl => by rw [dif_pos hl]; exact hA i ⟨l, hl⟩) (fun l hl => by rw [dif_pos hl]; exact hB ⟨l, hl⟩ j)
      (by
        rw [e2]
        have := mul_le_mul_of_nonneg_left (dot_le_norm a b i j) (show 0 ≤ (1 + u) ^ (n + 1) by positivity)
        linarith)
    rw [e1, e2] at h2
    exact ⟨s, h1, by linarith⟩
  choose s hs es using key
  refine ⟨Matrix.of s, ?_, ?_⟩
  · intro i j
    unfold mulMM
    rw [evalM_apply, if_pos ⟨i.2, j.2⟩]
    exact hs i j
  · refine norm_le_rows _ (by positivity) fun i => ?_
    have : ∀ j, |(Matrix.of s - a * b) i j| ≤ ((1 + u) ^ (n + 1) - 1) * ∑ l, |a i l * b l j| + n * η := fun j => by
      rw [Matrix.sub_apply, Matrix.of_apply, Matrix.mul_apply]
      exact es i j
    refine le_trans (sum_le_sum fun j _ => this j) ?_
    rw [sum_add_distrib, ← mul_sum, sum_const, card_univ, Fintype.card_fin, nsmul_eq_mul, ← mul_assoc]
    have := mul_le_mul_of_nonneg_left (norm_prod_entries a b i) hg
    linarith

set_option maxHeartbeats 1000000 in
/-- repeated squaring: the relative error doubles each time -/
theorem square_err (F : Fmt G u η) (hP : (1 + u) ^ n ≤ 2) (M₀ w : Mat (XF G)) (R₀ T : Sq n) (h0 : IsM M₀ R₀) (M δ : ℝ) (hM : 1 ≤ M)
    (hT : ‖T‖ ≤ M) (hδ : 0 ≤ δ) (hR : ‖R₀ - T‖ ≤ δ * M) (s : ℕ)
    (hbig : ((1 + δ) * ((1 + u) ^ (n + 1) + n * (n + 1) * η) * M) ^ 2 ^ s ≤ G.big) :
    ∃ R : Sq n, IsM (forN s (fun _ r => mulMM n n n r r w) M₀) R ∧
      ‖R - T ^ 2 ^ s‖ ≤ (((1 + δ) * ((1 + u) ^ (n + 1) + n * (n + 1) * η)) ^ 2 ^ s - 1) * M ^ 2 ^ s := by
  have u0 := F.u0
  have he := F.eta0
  have hn0 : (0:ℝ) ≤ n := Nat.cast_nonneg n
  set P := (1 + u) ^ (n + 1) with hPdef
  set ε : ℝ := n * (n + 1) * η with hε
  have hε0 : 0 ≤ ε := by positivity
  have hP1 : 1 ≤ P := one_le_pow₀ (by linarith)
  set g := P + ε with hg
  have hg1 : 1 ≤ g := by linarith
  set q := (1 + δ) * g with hq
  have hq1 : 1 ≤ q := one_le_mul_of_one_le_of_one_le (by linarith) hg1
  have key : ∀ t, t ≤ s → ∃ (R : Sq n) (X : ℝ), IsM (forN t (fun _ r => mulMM n n n r r w) M₀) R ∧ 1 ≤ X ∧ X * g = q ^ 2 ^ t ∧
      ‖R - T ^ 2 ^ t‖ ≤ (X - 1) * M ^ 2 ^ t := by
    intro t
    induction t with
    | zero =>
      intro _
      refine ⟨R₀, 1 + δ, h0, by linarith, by rw [hq]; ring, ?_⟩
      rw [pow_zero, pow_one, pow_one]
      linarith
    | succ t ih =>
      intro ht
      obtain ⟨R, X, h1, h2, h3, h4⟩ := ih (by omega)
      set m := M ^ 2 ^ t with hm
      have hm1 : 1 ≤ m := one_le_pow₀ hM
      have hTt : ‖T ^ 2 ^ t‖ ≤ m := le_trans (norm_pow_le_of_one norm_one_le T _) (pow_le_pow_left₀ (norm_nonneg _) hT _)
      have hRn : ‖R‖ ≤ X * m := by
        have := norm_add_le (R - T ^ 2 ^ t) (T ^ 2 ^ t)
        rw [sub_add_cancel] at this
        linarith
      have hRR : ‖R‖ * ‖R‖ ≤ (X * m) * (X * m) := mul_le_mul hRn hRn (norm_nonneg _) (by positivity)
      have hXm : 1 ≤ (X * m) * (X * m) := by
        have : 1 ≤ X * m := one_le_mul_of_one_le_of_one_le h2 hm1
        exact one_le_mul_of_one_le_of_one_le this this
      have hm2 : M ^ 2 ^ (t+1) = m * m := by rw [hm, pow_succ 2 t, pow_mul, sq]
      have hT2 : T ^ 2 ^ (t+1) = T ^ 2 ^ t * T ^ 2 ^ t := by rw [pow_succ 2 t, pow_mul, sq]
      have hX2 : (g * X * X) * g = q ^ 2 ^ (t+1) := by
        rw [pow_succ 2 t, pow_mul, sq, ← h3]
        ring
      have hnη : (n:ℝ) * η ≤ ε := by
        rw [hε]
        refine mul_le_mul_of_nonneg_right ?_ he.le
        nlinarith
      have hnη2 : (n:ℝ) * n * η ≤ ε := by
        rw [hε]
        refine mul_le_mul_of_nonneg_right ?_ he.le
        nlinarith
      have hXX : 0 ≤ X * X := by positivity
      have hgX : 1 ≤ g * X * X := one_le_mul_of_one_le_of_one_le (one_le_mul_of_one_le_of_one_le hg1 h2) h2
      have hrange : P * (‖R‖ * ‖R‖) + n * η ≤ G.big := by
        have a1 : P * (‖R‖ * ‖R‖) ≤ P * ((X * m) * (X * m)) := mul_le_mul_of_nonneg_left hRR (by linarith)
        have a2 : P * ((X * m) * (X * m)) + ε ≤ g * ((X * m) * (X * m)) := by
          rw [hg, add_mul]; exact add_le_add_right (le_mul_of_one_le_right hε0 hXm) _
        have a3 : g * ((X * m) * (X * m)) ≤ q ^ 2 ^ (t+1) * (m * m) := by
          rw [← hX2]
          have : g * ((X * m) * (X * m)) = (g * X * X) * (m * m) := by ring
          rw [this]
          refine mul_le_mul_of_nonneg_right ?_ (by positivity)
          exact le_mul_of_one_le_right (by linarith) hg1
        have a4 : q ^ 2 ^ (t+1) * (m * m) ≤ (q * M) ^ 2 ^ s := by
          rw [← hm2, ← mul_pow]
          exact pow_le_pow_right₀ (one_le_mul_of_one_le_of_one_le hq1 hM) (Nat.pow_le_pow_right (by norm_num) ht)
        linarith
      obtain ⟨c, c1, c2⟩ := mul_err F (forN t (fun _ r => mulMM n n n r r w) M₀) (forN t (fun _ r => mulMM n n n r r w) M₀) w R R h1 h1 hP hrange
      refine ⟨c, g * X * X, c1, hgX, hX2, ?_⟩
      rw [hT2, hm2]
      have e : c - T ^ 2 ^ t * T ^ 2 ^ t = (c - R * R) + (R * (R - T ^ 2 ^ t) + (R - T ^ 2 ^ t) * T ^ 2 ^ t) := by
        rw [mul_sub, sub_mul]
        abel
      rw [e]
      refine le_trans (norm_add_le _ _) ?_
      have b1 : ‖R * (R - T ^ 2 ^ t)‖ ≤ (X * m) * ((X - 1) * m) :=
        le_trans (norm_mul_le _ _) (mul_le_mul hRn h4 (norm_nonneg _) (by positivity))
      have b2 : ‖(R - T ^ 2 ^ t) * T ^ 2 ^ t‖ ≤ ((X - 1) * m) * m :=
        le_trans (norm_mul_le _ _) (mul_le_mul h4 hTt (norm_nonneg _) (mul_nonneg (by linarith) (by linarith)))
      have b3 := norm_add_le (R * (R - T ^ 2 ^ t)) ((R - T ^ 2 ^ t) * T ^ 2 ^ t)
      have b4 : (P - 1) * (‖R‖ * ‖R‖) ≤ (P - 1) * ((X * m) * (X * m)) := mul_le_mul_of_nonneg_left hRR (by linarith)
      have b5 : ε ≤ ε * ((X * m) * (X * m)) := le_mul_of_one_le_right hε0 hXm
      have b6 : (g * X * X - 1) * (m * m) = (P - 1) * ((X * m) * (X * m)) + ε * ((X * m) * (X * m)) + ((X * m) * ((X - 1) * m) + ((X - 1) * m) * m) := by
        rw [hg]; ring
      rw [b6]
      linarith
  obtain ⟨R, X, h1, h2, h3, h4⟩ := key s (le_refl _)
  refine ⟨R, h1, le_trans h4 ?_⟩
  refine mul_le_mul_of_nonneg_right ?_ (by positivity)
  rw [← h3]
  have := le_mul_of_one_le_right (show 0 ≤ X by linarith) hg1
  linarith


theorem smax_fin {v w : ℝ} {x y : XF G} (hx : Is x v) (hy : Is y w) : Is (smax x y) (max v w) := by
  obtain ⟨gv, rfl⟩ := hx
  obtain ⟨gw, rfl⟩ := hy
  unfold smax
  by_cases h : v < w
  · rw [if_pos (fin_lt.2 h), max_eq_right h.le]
    exact ⟨gw, rfl⟩
  · rw [if_neg (fun hh => h (fin_lt.1 hh)), max_eq_left (not_lt.1 h)]
    exact ⟨gv, rfl⟩

/-- the computed norm -/
theorem norm_value (F : Fmt G u η) (m : Mat (XF G)) (a : Sq n) (hm : IsM m a) (hbig : (1 + u) ^ n * ‖a‖ ≤ G.big) :
    ∃ v, Is (normInfM XF.abs n n m) v ∧ ‖a‖ * (2 - (1 + u) ^ n) ≤ v ∧ v ≤ (1 + u) ^ n * ‖a‖ := by
  have u0 := F.u0
  have hP1 : (1:ℝ) ≤ (1 + u) ^ n := one_le_pow₀ (by linarith)
  have row : ∀ r : Fin n, ∃ s, Is (forN n (fun c s => s + XF.abs (m r c)) 0) s ∧
      (∑ c, |a r c|) * (2 - (1 + u) ^ n) ≤ s ∧ s ≤ (1 + u) ^ n * ∑ c, |a r c| := by
    intro r
    have e : ∑ i ∈ range n, |(fun c => if h : c < n then |a r ⟨c, h⟩| else 0) i| = ∑ c, |a r c| := by
      rw [Finset.sum_range]
      exact sum_congr rfl fun l _ => by simp
    have e' : ∑ i ∈ range n, (fun c => if h : c < n then |a r ⟨c, h⟩| else 0) i = ∑ c, |a r c| := by
      rw [Finset.sum_range]
      exact sum_congr rfl fun l _ => by simp
    obtain ⟨s, s1, s2⟩ := F.sum n (fun c => XF.abs (m r c)) (fun c => if h : c < n then |a r ⟨c, h⟩| else 0)
      (fun c hc => by rw [dif_pos hc]; exact (hm r ⟨c, hc⟩).abs)
      (by
        rw [e]
        exact le_trans (mul_le_mul_of_nonneg_left (row_le_norm a r) (by linarith)) hbig) n (le_refl _)
    rw [e, e'] at s2
    refine ⟨s, s1, ?_, ?_⟩
    · have := (abs_le.1 s2).1
      linarith
    · have := (abs_le.1 s2).2
      linarith
  have key : ∀ k, k ≤ n → ∃ v, Is (forN k (fun r n' => smax n' (forN n (fun c s => s + XF.abs (m r c)) 0)) 0) v ∧ 0 ≤ v ∧
      (∀ r : Fin n, r < k → (∑ c, |a r c|) * (2 - (1 + u) ^ n) ≤ v) ∧ v ≤ (1 + u) ^ n * ‖a‖ := by
    intro k
    induction k with
    | zero =>
      intro _
      exact ⟨0, is_zero, le_refl _, fun r hr => absurd hr (Nat.not_lt_zero _), by positivity⟩
    | succ k ih =>
      intro hk
      obtain ⟨v, v1, v2, v3, v4⟩ := ih (by omega)
      obtain ⟨s, s1, s2, s3⟩ := row ⟨k, hk⟩
      refine ⟨max v s, smax_fin v1 s1, le_max_of_le_left v2, fun r hr => ?_, max_le v4 ?_⟩
      · rcases Nat.lt_succ_iff_lt_or_eq.1 hr with h | h
        · exact le_max_of_le_left (v3 r h)
        · have : r = ⟨k, hk⟩ := Fin.ext h
          rw [this]
          exact le_max_of_le_right s2
      · exact le_trans s3 (mul_le_mul_of_nonneg_left (row_le_norm a _) (by linarith))
  obtain ⟨v, v1, v2, v3, v4⟩ := key n (le_refl _)
  refine ⟨v, v1, ?_, v4⟩
  rcases le_or_gt (2 - (1 + u) ^ n) 0 with hc | hc
  · exact le_trans (mul_nonpos_of_nonneg_of_nonpos (norm_nonneg _) hc) v2
  · rw [← le_div_iff₀ hc]
    refine norm_le_rows a (div_nonneg v2 hc.le) fun r => ?_
    rw [le_div_iff₀ hc]
    exact v3 r r.2

/-- What is asked of the library functions in `max(0, (int)ceil(log2(x)))`: for a positive finite `x` the result is the smallest
possible exponent up to the relative error `δ`; the conversion of the logarithm of zero is undefined. -/
structure ScaleSpec (G : Grid) (δ : ℝ) (scale : XF G → Option ℕ) : Prop where
  pos : ∀ x v, Is x v → 0 < v → ∃ s, scale x = some s ∧ v ≤ (1 + δ) * 2 ^ s ∧ (s = 0 ∨ 2 ^ (s - 1) ≤ (1 + δ) * v)
  zero : scale 0 = none

/-- the relative error of `exp_taylor(m/(1<<s))` against the exponential of `m/2^s` -/
noncomputable def scaledErr (u η α : ℝ) (n J K : ℕ) : ℝ :=
  expBound u η ((1 + u) * α + n * η) n J K + u * α + n * η

theorem scaled_matrix (F : Fmt G u η) (m w : Mat (XF G)) (a : Sq n) (hm : IsM m a) (s : ℕ) (d : XF G) (hd : Is d (2 ^ s))
    (hα : ‖a‖ ≤ α * 2 ^ s) (hbig : (1 + u) * α + n * η + η ≤ G.big) :
    ∃ b : Sq n, IsM (applyScalarM (· / ·) n n m d w) b ∧ ‖b‖ ≤ (1 + u) * α + n * η ∧ ‖b - (1 / 2 ^ s : ℝ) • a‖ ≤ u * α + n * η := by
  have u0 := F.u0
  have he := F.eta0
  have h2 : (0:ℝ) < 2 ^ s := by positivity
  have hαn : ‖(1 / 2 ^ s : ℝ) • a‖ ≤ α := by
    rw [norm_smul, Real.norm_eq_abs, abs_of_nonneg (by positivity), one_div, inv_mul_le_iff₀ h2]
    linarith
  have hα0 : 0 ≤ α := le_trans (norm_nonneg _) hαn
  have hent : ∀ i j, |a i j / 2 ^ s| ≤ α := fun i j => by
    have := entry_le_norm ((1 / 2 ^ s : ℝ) • a) i j
    rw [Matrix.smul_apply, smul_eq_mul, one_div_mul_eq_div] at this
    linarith
  have hd2 : ‖(Matrix.of fun i j => G.rnd (a i j / 2 ^ s) : Sq n) - (1 / 2 ^ s : ℝ) • a‖ ≤ u * α + n * η := by
    refine norm_le_rows _ (by positivity) fun i => ?_
    have : ∀ j, |((Matrix.of fun i j => G.rnd (a i j / 2 ^ s) : Sq n) - (1 / 2 ^ s : ℝ) • a) i j| ≤ u * |((1 / 2 ^ s : ℝ) • a) i j| + η := fun j => by
      rw [Matrix.sub_apply, Matrix.of_apply, Matrix.smul_apply, smul_eq_mul, one_div, inv_mul_eq_div]
      have := F.err (a i j / 2 ^ s)
      linarith
    refine le_trans (sum_le_sum fun j _ => this j) ?_
    rw [sum_add_distrib, ← mul_sum, sum_const, card_univ, Fintype.card_fin, nsmul_eq_mul]
    have := mul_le_mul_of_nonneg_left (le_trans (row_le_norm ((1 / 2 ^ s : ℝ) • a) i) hαn) u0
    linarith
  refine ⟨Matrix.of fun i j => G.rnd (a i j / 2 ^ s), ?_, ?_, hd2⟩
  · intro i j
    unfold applyScalarM
    rw [evalM_apply, if_pos ⟨i.2, j.2⟩]
    refine (hm i j).div hd h2.ne' ?_
    have g1 := F.abs_rnd (a i j / 2 ^ s)
    have g2 := mul_le_mul_of_nonneg_left (hent i j) (show 0 ≤ 1 + u by linarith)
    have : 0 ≤ n * η := by positivity
    linarith
  · have := norm_add_le ((Matrix.of fun i j => G.rnd (a i j / 2 ^ s) : Sq n) - (1 / 2 ^ s : ℝ) • a) ((1 / 2 ^ s : ℝ) • a)
    rw [sub_add_cancel] at this
    linarith

/-- `exp` ends, and what it returns is close to the exponential -/
theorem expM_total (H : ExpHyp G u η ((1 + u) * α + n * η) n N) (m w : Mat (XF G)) (a : Sq n) (hm : IsM m a) (h0 : a ≠ 0)
    (scale : XF G → Option ℕ) (δ : ℝ) (hδ : 0 ≤ δ) (hsc : ScaleSpec G δ scale) (hP : (1 + δ) * (1 + u) ^ n < 2)
    (hα : 1 + δ ≤ α * (2 - (1 + u) ^ n)) (hmax : ‖a‖ ≤ 2 ^ 29) (hr : (1 + u) ^ n * ‖a‖ ≤ G.big)
    (ofInt : ℕ → XF G) (hint : ∀ s, s ≤ 30 → Is (ofInt (2 ^ s)) (2 ^ s))
    (i : ℕ) (hi : 3 < 2 ^ i * η) (hN : 4 * (n + 2) + i ≤ N) (J : ℕ) :
    ∃ s, s ≤ 30 ∧ ‖a‖ ≤ α * 2 ^ s ∧ (s = 0 ∨ 2 ^ s ≤ 2 * ((1 + δ) * (1 + u) ^ n) * ‖a‖) ∧
      (((1 + scaledErr u η α n J N) * ((1 + u) ^ (n + 1) + n * (n + 1) * η) * Real.exp ((1 + u) * α + n * η)) ^ 2 ^ s ≤ G.big →
      ∀ fuel, N < fuel → ∃ M R, expM XF.abs ofInt scale n m w fuel = .ret M ∧ IsM (n := n) M R ∧
        ‖R - NormedSpace.exp a‖ ≤
          (((1 + scaledErr u η α n J N) * ((1 + u) ^ (n + 1) + n * (n + 1) * η)) ^ 2 ^ s - 1) *
            Real.exp ((1 + u) * α + n * η) ^ 2 ^ s) := by
  have u0 := H.F.u0
  have he := H.F.eta0
  have hPn1 : (1:ℝ) ≤ (1 + u) ^ n := one_le_pow₀ (by linarith)
  have hPn : (1 + u) ^ n < 2 := by nlinarith
  have hpos : 0 < ‖a‖ := _root_.norm_pos_iff.2 h0
  obtain ⟨v, v1, v2, v3⟩ := norm_value H.F m a hm hr
  have hv : 0 < v := lt_of_lt_of_le (mul_pos hpos (by linarith)) v2
  obtain ⟨s, s1, s2, s3⟩ := hsc.pos _ v v1 hv
  have h2s : (0:ℝ) < 2 ^ s := by positivity
  have hvP : (1 + δ) * v ≤ (1 + δ) * (1 + u) ^ n * ‖a‖ := by
    rw [mul_assoc]
    exact mul_le_mul_of_nonneg_left v3 (by linarith)
  have hs30 : s ≤ 30 := by
    rcases s3 with h | h
    · omega
    · by_contra hc
      have h4 : (2:ℝ) ^ 30 ≤ 2 ^ (s - 1) := pow_le_pow_right₀ (by norm_num) (by omega)
      have h5 : (1 + δ) * (1 + u) ^ n * ‖a‖ < 2 * ‖a‖ := mul_lt_mul_of_pos_right hP hpos
      have : (2:ℝ) ^ 30 = 2 * 2 ^ 29 := by norm_num
      linarith
  have hn0 : (0:ℝ) ≤ n := Nat.cast_nonneg n
  have hαs : ‖a‖ ≤ α * 2 ^ s := by
    have h4 : ‖a‖ * (2 - (1 + u) ^ n) ≤ (α * 2 ^ s) * (2 - (1 + u) ^ n) := by
      have := mul_le_mul_of_nonneg_right hα h2s.le
      linarith
    exact le_of_mul_le_mul_right h4 (by linarith)
  refine ⟨s, hs30, hαs, ?_, ?_⟩
  · rcases s3 with h | h
    · exact Or.inl h
    · rcases Nat.eq_zero_or_pos s with rfl | hs0
      · exact Or.inl rfl
      · right
        have : (2:ℝ) ^ s = 2 * 2 ^ (s - 1) := by
          rw [← pow_succ']
          congr 1
          omega
        linarith
  · intro hbig fuel hf
    have hα0 : 0 ≤ α := by
      by_contra hc
      push Not at hc
      nlinarith [hpos]
    set β := (1 + u) * α + n * η with hβ
    have hβ2 : β ≤ 2 := le_trans H.alc H.c2
    have hη1 := H.eta1
    have hb64 := H.big
    obtain ⟨b, b1, b2, b3⟩ := scaled_matrix H.F m w a hm s _ (hint s hs30) hαs (by linarith)
    obtain ⟨K, M, R₀, k1, k2, k3, k4⟩ := expTaylor_total H _ w b b1 b2 i hi hN fuel (by omega)
    have hβ0 : 0 ≤ β := le_trans (norm_nonneg _) b2
    have hA0 := Real.exp_pos (β * (1 + u) ^ (n + 2))
    have hKN : expBound u η β n J K ≤ expBound u η β n J N := by
      unfold expBound
      dsimp only
      have h8 : (K:ℝ) ≤ N := by exact_mod_cast (by omega : K ≤ N)
      have h9 : (0:ℝ) ≤ n * (n + 1) * η := by positivity
      have := mul_le_mul_of_nonneg_right h8 h9
      linarith
    have hexpβ : 1 ≤ Real.exp β := Real.one_le_exp hβ0
    have hT : ‖NormedSpace.exp ((1 / 2 ^ s : ℝ) • a)‖ ≤ Real.exp β := by
      refine le_trans (norm_exp_le _) (Real.exp_le_exp.2 ?_)
      rw [norm_smul, Real.norm_eq_abs, abs_of_nonneg (by positivity), one_div, inv_mul_le_iff₀ h2s]
      have : α ≤ β := by
        have : 0 ≤ u * α := mul_nonneg u0 hα0
        have : 0 ≤ n * η := by positivity
        linarith
      have := mul_le_mul_of_nonneg_right this h2s.le
      linarith
    have hbnd0 : 0 ≤ expBound u η β n J N := by
      refine le_trans ?_ hKN
      exact le_trans (norm_nonneg _) (k4 J)
    have hδ0 : 0 ≤ scaledErr u η α n J N := by
      unfold scaledErr
      rw [← hβ]
      have : 0 ≤ u * α := mul_nonneg u0 hα0
      positivity
    have hR : ‖R₀ - NormedSpace.exp ((1 / 2 ^ s : ℝ) • a)‖ ≤ scaledErr u η α n J N * Real.exp β := by
      have e : R₀ - NormedSpace.exp ((1 / 2 ^ s : ℝ) • a) = (R₀ - NormedSpace.exp b) + (NormedSpace.exp b - NormedSpace.exp ((1 / 2 ^ s : ℝ) • a)) := by
        abel
      rw [e]
      refine le_trans (norm_add_le _ _) ?_
      have g1 := exp_perturb b ((1 / 2 ^ s : ℝ) • a) β b2 (by
        rw [norm_smul, Real.norm_eq_abs, abs_of_nonneg (by positivity), one_div, inv_mul_le_iff₀ h2s]
        have : α ≤ β := by
          have : 0 ≤ u * α := mul_nonneg u0 hα0
          have : 0 ≤ n * η := by positivity
          linarith
        have := mul_le_mul_of_nonneg_right this h2s.le
        linarith)
      have g2 := mul_le_mul_of_nonneg_right b3 (Real.exp_pos β).le
      have g3 := k4 J
      have g4 := le_mul_of_one_le_right hbnd0 hexpβ
      unfold scaledErr
      rw [← hβ]
      linarith
    obtain ⟨R, r1, r2⟩ := square_err H.F hPn.le M w R₀ _ k3 (Real.exp β) _ hexpβ hT hδ0 hR s hbig
    refine ⟨_, R, ?_, r1, ?_⟩
    · unfold expM
      rw [s1]
      dsimp only
      rw [if_neg (by omega), k2]
    · rw [exp_pow_scaled] at r2
      exact r2

end TooN.Special
