import Verif.Proof.NormXF
import Verif.Proof.ExpLog
import Mathlib.Analysis.Complex.ExponentialBounds
/-!
# The loop of `exp_taylor` in a floating-point format
-/
set_option linter.unusedSectionVars false
namespace TooN.Special
open TooN.Ops Finset TooN.MatFun
open scoped Classical Nat
open scoped Matrix.Norms.Operator

variable {G : Grid} {u η : ℝ} {n : ℕ}

/-- the stored matrix consists of the finite numbers `a` -/
def IsM (A : Mat (XF G)) (a : Sq n) : Prop := ∀ i j : Fin n, Is (A i j) (a i j)

/-- the variables `result`, `f`, `k` of `exp_taylor` after `j` iterations -/
noncomputable def expSt (n : ℕ) (m w : Mat (XF G)) : ℕ → Mat (XF G) × Mat (XF G) × XF G
  | 0 => (zerosM n n w, forN n (fun r m => Mat.set m r r 1) (zerosM n n w), 1)
  | j+1 => (addM n n (expSt n m w j).1 (expSt n m w j).2.1 (expSt n m w j).1,
      applyScalarM (· / ·) n n (mulMM n n n m (expSt n m w j).2.1 w) (expSt n m w j).2.2 w, (expSt n m w j).2.2 + 1)

/-- the loop ends before iteration `j` -/
def Stops (n : ℕ) (m w : Mat (XF G)) (j : ℕ) : Prop :=
  ¬ 0 < normInfM XF.abs n n (subM n n (addM n n (expSt n m w j).1 (expSt n m w j).2.1 w) (expSt n m w j).1 w)

theorem loop_stops (m w : Mat (XF G)) (K : ℕ) (hK : Stops n m w K) (fuel : ℕ) : ∀ j, j ≤ K → K < j + fuel →
    ∃ L, j ≤ L ∧ L ≤ K ∧ Stops n m w L ∧
      expTaylorLoop XF.abs n m w fuel (expSt n m w j).1 (expSt n m w j).2.1 (expSt n m w j).2.2 = some (expSt n m w L).1 := by
  induction fuel with
  | zero => intro j h1 h2; omega
  | succ fuel ih =>
    intro j h1 h2
    by_cases h : Stops n m w j
    · refine ⟨j, le_refl _, h1, h, ?_⟩
      unfold expTaylorLoop
      rw [if_neg h]
    · have hne : j ≠ K := fun e => h (e ▸ hK)
      obtain ⟨L, l1, l2, l3, l4⟩ := ih (j+1) (by omega) (by omega)
      refine ⟨L, by omega, l2, l3, ?_⟩
      unfold expTaylorLoop
      rw [if_pos (not_not.1 h)]
      exact l4

theorem expTaylor_stops (m w : Mat (XF G)) (K fuel : ℕ) (hK : Stops n m w K) (hf : K < fuel) :
    ∃ L, L ≤ K ∧ Stops n m w L ∧ expTaylor XF.abs n m w fuel = some (expSt n m w L).1 := by
  obtain ⟨L, -, l2, l3, l4⟩ := loop_stops m w K hK fuel 0 (by omega) (by omega)
  exact ⟨L, l2, l3, l4⟩

/-- one iteration: the new term -/
theorem step_term (F : Fmt G u η) (m f w : Mat (XF G)) (a b : Sq n) (hm : IsM m a) (hf : IsM f b) (k : XF G) (κ : ℝ)
    (hk : Is k κ) (hκ : 1 ≤ κ) (hP : (1 + u) ^ (n + 2) ≤ 2) (hab : ‖a‖ * ‖b‖ ≤ 8) (hη : n * (n + 1) * η ≤ 1) (hη1 : η ≤ 1)
    (hbig : 64 ≤ G.big) :
    ∃ c s : Sq n, IsM (applyScalarM (· / ·) n n (mulMM n n n m f w) k w) c ∧ (∀ i j, c i j = G.rnd (s i j / κ)) ∧
      ∀ i j, |s i j - ∑ l, a i l * b l j| ≤ ((1 + u) ^ (n + 1) - 1) * ∑ l, |a i l * b l j| + n * (1 + u) ^ n * (η / 2) := by
  have u0 := F.u0
  have he := F.eta0
  have hn0 : (0:ℝ) ≤ n := Nat.cast_nonneg n
  have hPn : (1 + u) ^ n ≤ 2 := le_trans (pow_le_pow_right₀ (by linarith) (by omega)) hP
  have hPn1 : (1 + u) ^ (n + 1) ≤ 2 := le_trans (pow_le_pow_right₀ (by linarith) (by omega)) hP
  have hP0 : (0:ℝ) ≤ (1 + u) ^ n := by positivity
  have hnη : (n:ℝ) * η ≤ 1 := by
    have : (n:ℝ) * η ≤ n * (n + 1) * η := by
      refine mul_le_mul_of_nonneg_right ?_ he.le
      nlinarith
    linarith
  have hsmall : n * (1 + u) ^ n * (η / 2) ≤ 1 := by nlinarith
  have key : ∀ i j : Fin n, ∃ s, Is (dot n (m i) (fun l => f l j)) s ∧
      |s - ∑ l, a i l * b l j| ≤ ((1 + u) ^ (n + 1) - 1) * ∑ l, |a i l * b l j| + n * (1 + u) ^ n * (η / 2) := by
    intro i j
    have hd : (1 + u) ^ (n + 1) * ∑ l, |a i l * b l j| ≤ 16 := by
      have h1 := dot_le_norm a b i j
      have h2 : 0 ≤ ∑ l, |a i l * b l j| := sum_nonneg fun _ _ => abs_nonneg _
      nlinarith
    have e1 : ∑ l ∈ range n, (fun l => if h : l < n then a i ⟨l, h⟩ else 0) l * (fun l => if h : l < n then b ⟨l, h⟩ j else 0) l = ∑ l, a i l * b l j := by
      rw [Finset.sum_range]
      exact sum_congr rfl fun l _ => by simp
    have e2 : ∑ l ∈ range n, |(fun l => if h : l < n then a i ⟨l, h⟩ else 0) l * (fun l => if h : l < n then b ⟨l, h⟩ j else 0) l| = ∑ l, |a i l * b l j| := by
      rw [Finset.sum_range]
      exact sum_congr rfl fun l _ => by simp
    obtain ⟨s, h1, h2⟩ := F.dot n (m i) (fun l => f l j) (fun l => if h : l < n then a i ⟨l, h⟩ else 0)
      (fun l => if h : l < n then b ⟨l, h⟩ j else 0)
      (fun l hl => by rw [dif_pos hl]; exact hm i ⟨l, hl⟩) (fun l hl => by rw [dif_pos hl]; exact hf ⟨l, hl⟩ j)
      (by rw [e2]; linarith)
    rw [e1, e2] at h2
    exact ⟨s, h1, h2⟩
  choose s hs es using key
  refine ⟨fun i j => G.rnd (s i j / κ), s, ?_, fun i j => rfl, es⟩
  intro i j
  unfold applyScalarM mulMM
  rw [evalM_apply, if_pos ⟨i.2, j.2⟩, evalM_apply, if_pos ⟨i.2, j.2⟩]
  refine (hs i j).div hk (by linarith) ?_
  have hd : (1 + u) ^ (n + 1) * ∑ l, |a i l * b l j| ≤ 16 := by
    have h1 := dot_le_norm a b i j
    have h2 : 0 ≤ ∑ l, |a i l * b l j| := sum_nonneg fun _ _ => abs_nonneg _
    nlinarith
  have hsb : |s i j| ≤ 17 := by
    have g1 := abs_add_le (s i j - ∑ l, a i l * b l j) (∑ l, a i l * b l j)
    have g2 : |∑ l, a i l * b l j| ≤ ∑ l, |a i l * b l j| := abs_sum_le_sum_abs _ _
    rw [sub_add_cancel] at g1
    have := es i j
    linarith
  have hq : |s i j / κ| ≤ 17 := by
    rw [abs_div, abs_of_pos (by linarith : 0 < κ), div_le_iff₀ (by linarith)]
    nlinarith
  have := F.abs_rnd (s i j / κ)
  have := F.u1
  nlinarith [abs_nonneg (s i j / κ)]

/-- error of the new term -/
theorem step_err (F : Fmt G u η) (a b c s : Sq n) (κ : ℝ) (hκ : 1 ≤ κ) (hP : (1 + u) ^ (n + 2) ≤ 2)
    (hc : ∀ i j, c i j = G.rnd (s i j / κ))
    (hs : ∀ i j, |s i j - ∑ l, a i l * b l j| ≤ ((1 + u) ^ (n + 1) - 1) * ∑ l, |a i l * b l j| + n * (1 + u) ^ n * (η / 2)) :
    ‖c - (1 / κ) • (a * b)‖ ≤ ((1 + u) ^ (n + 2) - 1) * (‖a‖ * ‖b‖ / κ) + n * (n + 1) * η := by
  have u0 := F.u0
  have he := F.eta0
  have hn0 : (0:ℝ) ≤ n := Nat.cast_nonneg n
  have hPn1 : (1 + u) ^ (n + 1) ≤ 2 := le_trans (pow_le_pow_right₀ (by linarith) (by omega)) hP
  have hg : 0 ≤ (1 + u) ^ (n + 2) - 1 := by
    have : (1:ℝ) ≤ (1 + u) ^ (n + 2) := one_le_pow₀ (by linarith)
    linarith
  have hκ0 : 0 < κ := by linarith
  have entry : ∀ i j, |(c - (1 / κ) • (a * b)) i j| ≤ ((1 + u) ^ (n + 2) - 1) * ((∑ l, |a i l * b l j|) / κ) + (n + 1) * η := by
    intro i j
    have e : (c - (1 / κ) • (a * b)) i j = G.rnd (s i j / κ) - (∑ l, a i l * b l j) / κ := by
      rw [Matrix.sub_apply, Matrix.smul_apply, Matrix.mul_apply, hc, smul_eq_mul, one_div, inv_mul_eq_div]
    rw [e]
    set S := ∑ l, a i l * b l j with hS
    set D := ∑ l, |a i l * b l j| with hD
    have hD0 : 0 ≤ D := sum_nonneg fun _ _ => abs_nonneg _
    have hSD : |S| ≤ D := abs_sum_le_sum_abs _ _
    have h1 := F.err (s i j / κ)
    have h2 := hs i j
    have h3 : |s i j / κ - S / κ| ≤ (((1 + u) ^ (n + 1) - 1) * D + n * (1 + u) ^ n * (η / 2)) / κ := by
      rw [← sub_div, abs_div, abs_of_pos hκ0]
      exact div_le_div_of_nonneg_right h2 hκ0.le
    have h4 : |s i j / κ| ≤ |s i j / κ - S / κ| + D / κ := by
      have := abs_add_le (s i j / κ - S / κ) (S / κ)
      rw [sub_add_cancel] at this
      have h5 : |S / κ| ≤ D / κ := by
        rw [abs_div, abs_of_pos hκ0]
        exact div_le_div_of_nonneg_right hSD hκ0.le
      linarith
    have h6 : |G.rnd (s i j / κ) - S / κ| ≤ (1 + u) * |s i j / κ - S / κ| + u * (D / κ) + η / 2 := by
      have := abs_add_le (G.rnd (s i j / κ) - s i j / κ) (s i j / κ - S / κ)
      rw [sub_add_sub_cancel] at this
      nlinarith
    have h7 : (1 + u) * |s i j / κ - S / κ| ≤ (1 + u) * ((((1 + u) ^ (n + 1) - 1) * D + n * (1 + u) ^ n * (η / 2)) / κ) :=
      mul_le_mul_of_nonneg_left h3 (by linarith)
    have h8 : (1 + u) * ((((1 + u) ^ (n + 1) - 1) * D + n * (1 + u) ^ n * (η / 2)) / κ) + u * (D / κ) =
        ((1 + u) ^ (n + 2) - 1) * (D / κ) + (n * (1 + u) ^ (n + 1) * (η / 2)) / κ := by
      field_simp
      ring
    have h9 : (n * (1 + u) ^ (n + 1) * (η / 2)) / κ ≤ n * η := by
      have : n * (1 + u) ^ (n + 1) * (η / 2) ≤ n * η := by
        have : n * (1 + u) ^ (n + 1) * (η / 2) ≤ n * 2 * (η / 2) := by gcongr
        linarith
      have h10 : 0 ≤ n * (1 + u) ^ (n + 1) * (η / 2) := by positivity
      exact le_trans (div_le_self h10 hκ) this
    linarith
  refine norm_le_rows _ (by positivity) fun i => ?_
  refine le_trans (sum_le_sum fun j _ => entry i j) ?_
  rw [sum_add_distrib, ← mul_sum, ← sum_div, sum_const, card_univ, Fintype.card_fin, nsmul_eq_mul]
  have := norm_prod_entries a b i
  have h2 : ((1 + u) ^ (n + 2) - 1) * ((∑ j, ∑ l, |a i l * b l j|) / κ) ≤ ((1 + u) ^ (n + 2) - 1) * (‖a‖ * ‖b‖ / κ) :=
    mul_le_mul_of_nonneg_left (div_le_div_of_nonneg_right this hκ0.le) hg
  linarith

/-- `c^j/j!` -/
noncomputable def tt (c : ℝ) (j : ℕ) : ℝ := c ^ j / j !

theorem tt_succ (c : ℝ) (j : ℕ) : tt c (j+1) = c / (j+1) * tt c j := by
  unfold tt
  rw [Nat.factorial_succ]
  push_cast
  field_simp
  ring

theorem tt_nonneg {c : ℝ} (h : 0 ≤ c) (j : ℕ) : 0 ≤ tt c j := by unfold tt; positivity

theorem tt_mono {b c : ℝ} (h0 : 0 ≤ b) (h : b ≤ c) (j : ℕ) : tt b j ≤ tt c j := by
  unfold tt
  gcongr

theorem tt_le_two {c : ℝ} (h0 : 0 ≤ c) (h : c ≤ 2) (j : ℕ) : tt c j ≤ 2 := by
  refine le_trans (tt_mono h0 h j) ?_
  unfold tt
  rw [div_le_iff₀ (by positivity)]
  have : 2 ^ j ≤ 2 * j ! := by
    induction j with
    | zero => simp
    | succ j ih =>
      rcases Nat.eq_zero_or_pos j with rfl | hj
      · simp
      · rw [Nat.factorial_succ, pow_succ]
        nlinarith [Nat.factorial_pos j]
  exact_mod_cast this

theorem norm_expTerm_le (a : Sq n) {α : ℝ} (h : ‖a‖ ≤ α) (j : ℕ) : ‖expTerm a j‖ ≤ tt α j := by
  unfold expTerm tt
  rw [norm_smul, Real.norm_eq_abs, abs_of_nonneg (by positivity), div_eq_inv_mul]
  refine mul_le_mul_of_nonneg_left ?_ (by positivity)
  exact le_trans (norm_pow_le_of_one norm_one_le a j) (pow_le_pow_left₀ (norm_nonneg _) h j)

/-- the number of iterations does not make powers of `1+u` large -/
theorem pow_le_two (u0 : 0 ≤ u) (N : ℕ) (hN : N * u ≤ 1 / 2) : (1 + u) ^ N ≤ 2 := by
  have h1 : (1 + u) ^ N ≤ Real.exp (N * u) := by
    rw [Real.exp_nat_mul]
    exact pow_le_pow_left₀ (by linarith) (by linarith [Real.add_one_le_exp u]) N
  have h2 : Real.exp (N * u) ≤ Real.exp (1 / 2) := Real.exp_le_exp.2 hN
  have h3 : Real.exp (1 / 2) ≤ 2 := by
    have h4 : Real.exp (1 / 2) ^ 2 = Real.exp 1 := by rw [← Real.exp_nat_mul]; norm_num
    have h5 := Real.exp_one_lt_d9
    have h6 := Real.exp_pos (1 / 2)
    nlinarith
  linarith

/-- error of the `j`-th term -/
noncomputable def dl (ε : ℝ) (j : ℕ) : ℝ := (min j 3 : ℕ) * ε

theorem dl_nonneg {ε : ℝ} (h : 0 ≤ ε) (j : ℕ) : 0 ≤ dl ε j := by unfold dl; positivity
theorem dl_le {ε : ℝ} (h : 0 ≤ ε) (j : ℕ) : dl ε j ≤ 3 * ε := by
  unfold dl
  refine mul_le_mul_of_nonneg_right ?_ h
  exact_mod_cast min_le_right j 3

theorem dl_succ {ε c : ℝ} (h : 0 ≤ ε) (h0 : 0 ≤ c) (hc : c ≤ 2) (j : ℕ) : c / (j+1) * dl ε j + ε ≤ dl ε (j+1) := by
  have h1 : c / (j+1) * dl ε j ≤ 2 / (j+1) * dl ε j :=
    mul_le_mul_of_nonneg_right (by gcongr) (dl_nonneg h j)
  refine le_trans (add_le_add_left h1 ε) ?_
  unfold dl
  rcases j with _ | _ | _ | j
  · simp
  · norm_num
    linarith
  · norm_num
    linarith
  · have e1 : min (j+1+1+1) 3 = 3 := by omega
    have e2 : min (j+1+1+1+1) 3 = 3 := by omega
    rw [e1, e2]
    push_cast
    have : (2:ℝ) / (j+1+1+1+1) ≤ 1 / 2 := by
      rw [div_le_div_iff₀ (by positivity) (by norm_num)]
      have : (0:ℝ) ≤ j := Nat.cast_nonneg j
      linarith
    nlinarith

/-- the conditions under which the loop is analysed -/
structure ExpHyp (G : Grid) (u η α : ℝ) (n N : ℕ) : Prop where
  F : Fmt G u η
  al0 : 0 ≤ α
  c2 : α * (1 + u) ^ (n + 2) ≤ 2
  Nu : N * u ≤ 1 / 2
  nN : n + 2 ≤ N
  eps : 3 * N * (n * (n + 1) * η) ≤ 1
  eta1 : η ≤ 1
  big : 64 ≤ G.big
  bigN : N + 1 ≤ G.big

variable {α : ℝ} {N : ℕ}

theorem ExpHyp.eps_le (H : ExpHyp G u η α n N) : n * (n + 1) * η ≤ 1 / 6 := by
  have he := H.F.eta0
  have h1 : (0:ℝ) ≤ n * (n + 1) * η := by positivity
  have h2 : (2:ℝ) ≤ N := by
    have := H.nN
    exact_mod_cast (by omega : 2 ≤ N)
  have := H.eps
  nlinarith

theorem ExpHyp.pow_le (H : ExpHyp G u η α n N) {j : ℕ} (hj : j ≤ N) : (1 + u) ^ j ≤ 2 :=
  le_trans (pow_le_pow_right₀ (by linarith [H.F.u0]) hj) (pow_le_two H.F.u0 N H.Nu)

theorem ExpHyp.c0 (H : ExpHyp G u η α n N) : 0 ≤ α * (1 + u) ^ (n + 2) := by
  have := H.al0
  have := H.F.u0
  positivity

theorem ExpHyp.alc (H : ExpHyp G u η α n N) : α ≤ α * (1 + u) ^ (n + 2) := by
  have h : (1:ℝ) ≤ (1 + u) ^ (n + 2) := one_le_pow₀ (by linarith [H.F.u0])
  nlinarith [H.al0]

/-- sum of the bounds on the terms -/
noncomputable def ph (c ε : ℝ) (j : ℕ) : ℝ := ∑ i ∈ range j, (tt c i + 3 * ε)

theorem ph_nonneg {c ε : ℝ} (hc : 0 ≤ c) (he : 0 ≤ ε) (j : ℕ) : 0 ≤ ph c ε j :=
  sum_nonneg fun i _ => by have := tt_nonneg hc i; positivity

theorem ph_le {c ε : ℝ} (hc : 0 ≤ c) (j : ℕ) : ph c ε j ≤ Real.exp c + j * (3 * ε) := by
  unfold ph
  rw [sum_add_distrib, sum_const, card_range, nsmul_eq_mul]
  have : ∑ i ∈ range j, tt c i ≤ Real.exp c := Real.sum_le_exp_of_nonneg hc j
  linarith

theorem exp_two_le : Real.exp 2 ≤ 8 := by
  have h4 : Real.exp 2 = Real.exp 1 ^ 2 := by rw [← Real.exp_nat_mul]; norm_num
  have h5 := Real.exp_one_lt_d9
  have h6 := Real.exp_pos 1
  rw [h4]
  nlinarith

theorem ExpHyp.ph_le (H : ExpHyp G u η α n N) {j : ℕ} (hj : j ≤ N) :
    ph (α * (1 + u) ^ (n + 2)) (n * (n + 1) * η) j ≤ Real.exp (α * (1 + u) ^ (n + 2)) + 1 := by
  refine le_trans (TooN.Special.ph_le H.c0 j) ?_
  have he := H.F.eta0
  have h1 : (0:ℝ) ≤ n * (n + 1) * η := by positivity
  have h2 : (j:ℝ) ≤ N := by exact_mod_cast hj
  have := H.eps
  nlinarith

theorem ExpHyp.exp_le (H : ExpHyp G u η α n N) : Real.exp (α * (1 + u) ^ (n + 2)) ≤ 8 :=
  le_trans (Real.exp_le_exp.2 H.c2) exp_two_le

/-- the state after `j ≤ N` iterations -/
def ExpInv (u η α : ℝ) (a : Sq n) (st : Mat (XF G) × Mat (XF G) × XF G) (j : ℕ) : Prop :=
  ∃ r f : Sq n, IsM st.1 r ∧ IsM st.2.1 f ∧ Is st.2.2 (j + 1) ∧
    ‖f - expTerm a j‖ ≤ tt (α * (1 + u) ^ (n + 2)) j - tt α j + dl (n * (n + 1) * η) j ∧
    ‖r‖ ≤ (1 + u) ^ j * ph (α * (1 + u) ^ (n + 2)) (n * (n + 1) * η) j ∧
    ∀ J, ‖r - ∑ i ∈ range j, expTerm a i‖ ≤ ((1 + u) ^ min j J - 1) * ph (α * (1 + u) ^ (n + 2)) (n * (n + 1) * η) j +
      ∑ i ∈ range j, (if J ≤ i then tt (α * (1 + u) ^ (n + 2)) i + 3 * (n * (n + 1) * η) else 0) +
      ∑ i ∈ range j, (tt (α * (1 + u) ^ (n + 2)) i - tt α i + 3 * (n * (n + 1) * η))

theorem term_norm (H : ExpHyp G u η α n N) {a f : Sq n} (ha : ‖a‖ ≤ α) {j : ℕ}
    (h : ‖f - expTerm a j‖ ≤ tt (α * (1 + u) ^ (n + 2)) j - tt α j + dl (n * (n + 1) * η) j) :
    ‖f‖ ≤ tt (α * (1 + u) ^ (n + 2)) j + dl (n * (n + 1) * η) j := by
  have h1 := norm_add_le (f - expTerm a j) (expTerm a j)
  rw [sub_add_cancel] at h1
  have := norm_expTerm_le a ha j
  linarith

theorem diag_one {K : Type*} [One K] (m : Mat K) (k i j : ℕ) :
    forN k (fun r m => Mat.set m r r 1) m i j = if i < k ∧ i = j then 1 else m i j := by
  rw [forN_diagupd k (fun _ _ => (1:K)) m i j]
  by_cases h : i < k ∧ i = j
  · rw [if_pos h, if_pos ⟨h.2, h.1⟩]
  · rw [if_neg h, if_neg (fun g => h ⟨g.2, g.1⟩)]

set_option maxHeartbeats 1000000 in
theorem exp_inv (H : ExpHyp G u η α n N) (m w : Mat (XF G)) (a : Sq n) (hm : IsM m a) (ha : ‖a‖ ≤ α) (j : ℕ) (hj : j ≤ N) :
    ExpInv u η α a (expSt n m w j) j := by
  have u0 := H.F.u0
  have he := H.F.eta0
  set ε : ℝ := n * (n + 1) * η with hε
  have hε0 : 0 ≤ ε := by positivity
  have hε6 := H.eps_le
  set c : ℝ := α * (1 + u) ^ (n + 2) with hc
  have hc0 : 0 ≤ c := H.c0
  have hαc : α ≤ c := H.alc
  have hA := H.exp_le
  induction j with
  | zero =>
    refine ⟨0, 1, ?_, ?_, ?_, ?_, ?_, ?_⟩
    · intro i k
      unfold expSt zerosM
      dsimp only
      rw [evalM_apply, if_pos ⟨i.2, k.2⟩]
      exact is_zero
    · intro i k
      unfold expSt
      dsimp only
      rw [diag_one]
      by_cases e : i = k
      · rw [e, if_pos ⟨k.2, rfl⟩, Matrix.one_apply_eq]
        exact is_one
      · rw [if_neg (fun h => e (Fin.ext h.2)), Matrix.one_apply_ne e]
        unfold zerosM
        rw [evalM_apply, if_pos ⟨i.2, k.2⟩]
        exact is_zero
    · rw [Nat.cast_zero, zero_add]
      exact is_one
    · simp [expTerm, tt, dl]
    · rw [norm_zero]
      exact mul_nonneg (by positivity) (ph_nonneg hc0 hε0 0)
    · simp
  | succ j ih =>
    obtain ⟨r, f, h1, h2, h3, h4, h5, h6⟩ := ih (by omega)
    rw [← hc, ← hε] at h4 h5 h6
    have hf0 := term_norm H ha h4
    rw [← hc, ← hε] at hf0
    have hf : ‖f‖ ≤ tt c j + 3 * ε := le_trans hf0 (by linarith [dl_le hε0 j])
    have hκ : (1:ℝ) ≤ (j:ℝ) + 1 := by linarith [(Nat.cast_nonneg j : (0:ℝ) ≤ j)]
    have hP : (1 + u) ^ (n + 2) ≤ 2 := H.pow_le H.nN
    have hα2 : α ≤ 2 := le_trans hαc H.c2
    have htt2 : tt c j ≤ 2 := tt_le_two hc0 H.c2 j
    have hf3 : ‖f‖ ≤ 3 := by linarith
    obtain ⟨b, s, b1, b2, b3⟩ := step_term H.F m (expSt n m w j).2.1 w a f hm h2 (expSt n m w j).2.2 (j+1) h3 hκ hP
      (by nlinarith [norm_nonneg a, norm_nonneg f]) (by linarith) H.eta1 H.big
    have b4 := step_err H.F a f b s (j+1) hκ hP b2 b3
    have hΦ : ph c ε j ≤ 9 := by
      have := H.ph_le (show j ≤ N by omega)
      linarith
    have hΦ0 := ph_nonneg hc0 hε0 j
    have hPj := H.pow_le (show j ≤ N by omega)
    have hr : ‖r‖ ≤ 18 := by nlinarith
    have hrf : ∀ i k, |r i k + f i k| ≤ 21 := fun i k => by
      have g1 := entry_le_norm r i k
      have g2 := entry_le_norm f i k
      have g3 := abs_add_le (r i k) (f i k)
      linarith
    have hadd : ∀ i k, |G.rnd (r i k + f i k) - (r i k + f i k)| ≤ u * |r i k + f i k| := fun i k =>
      H.F.add (h1 i k).rep (h2 i k).rep
    have hD : ‖(Matrix.of fun i k => G.rnd (r i k + f i k) : Sq n) - (r + f)‖ ≤ u * ‖r + f‖ :=
      norm_le_of_entries _ _ u0 fun i k => by
        rw [Matrix.sub_apply, Matrix.add_apply, Matrix.of_apply]
        exact hadd i k
    have hrfn : ‖r + f‖ ≤ (1 + u) ^ j * ph c ε j + (tt c j + 3 * ε) := le_trans (norm_add_le _ _) (add_le_add h5 hf)
    have hph : ph c ε (j+1) = ph c ε j + (tt c j + 3 * ε) := sum_range_succ _ _
    have hφ0 : 0 ≤ tt c j + 3 * ε := by have := tt_nonneg hc0 j; positivity
    have hP1 : (1:ℝ) ≤ (1 + u) ^ j := one_le_pow₀ (by linarith)
    refine ⟨Matrix.of fun i k => G.rnd (r i k + f i k), b, ?_, b1, ?_, ?_, ?_, ?_⟩
    · intro i k
      show Is (addM n n (expSt n m w j).1 (expSt n m w j).2.1 (expSt n m w j).1 i k) _
      unfold addM pairwiseM
      rw [evalM_apply, if_pos ⟨i.2, k.2⟩]
      refine (h1 i k).add (h2 i k) ?_
      have g1 := hadd i k
      have g2 := abs_add_le (G.rnd (r i k + f i k) - (r i k + f i k)) (r i k + f i k)
      rw [sub_add_cancel] at g2
      have := hrf i k
      have := H.F.u1
      have := H.big
      nlinarith [abs_nonneg (r i k + f i k)]
    · show Is ((expSt n m w j).2.2 + 1) _
      have hint : G.rnd (((j:ℝ) + 1) + 1) = ((j:ℝ) + 1) + 1 := by
        have := H.F.int (k := j + 2) (by
          have := H.Nu
          have h8 : ((j + 2 : ℕ):ℝ) ≤ N + 1 := by exact_mod_cast (by omega : j + 2 ≤ N + 1)
          have := H.F.u1
          nlinarith)
        push_cast at this
        rw [show ((j:ℝ) + 1) + 1 = j + 2 by ring]
        exact this
      have := h3.add is_one (by
        rw [hint, abs_of_nonneg (by positivity)]
        have h8 : ((j:ℝ) + 1) + 1 ≤ N + 1 := by exact_mod_cast (by omega : j + 1 + 1 ≤ N + 1)
        linarith [H.bigN])
      rw [hint] at this
      rw [Nat.cast_succ]
      exact this
    · rw [← hc, ← hε]
      have e : b - expTerm a (j+1) = (b - (1 / ((j:ℝ)+1)) • (a * f)) + (1 / ((j:ℝ)+1)) • (a * (f - expTerm a j)) := by
        rw [mul_sub, smul_sub, MatFun.expTerm_succ]
        abel
      rw [e]
      refine le_trans (norm_add_le _ _) ?_
      have g1 : ‖(1 / ((j:ℝ)+1)) • (a * (f - expTerm a j))‖ ≤ α / (j+1) * (tt c j - tt α j + dl ε j) := by
        rw [norm_smul, Real.norm_eq_abs, abs_of_nonneg (by positivity), one_div, inv_mul_eq_div, div_mul_eq_mul_div]
        refine div_le_div_of_nonneg_right ?_ (by positivity)
        exact le_trans (norm_mul_le _ _) (mul_le_mul ha h4 (norm_nonneg _) H.al0)
      have g2 : ((1 + u) ^ (n + 2) - 1) * (‖a‖ * ‖f‖ / (j+1)) ≤ ((1 + u) ^ (n + 2) - 1) * (α * (tt c j + dl ε j) / (j+1)) := by
        have : (1:ℝ) ≤ (1 + u) ^ (n + 2) := one_le_pow₀ (by linarith)
        refine mul_le_mul_of_nonneg_left ?_ (by linarith)
        exact div_le_div_of_nonneg_right (mul_le_mul ha hf0 (norm_nonneg _) H.al0) (by positivity)
      have g3 := dl_succ hε0 hc0 H.c2 j
      have g4 : ((1 + u) ^ (n + 2) - 1) * (α * (tt c j + dl ε j) / (j+1)) + ε + α / (j+1) * (tt c j - tt α j + dl ε j) =
          tt c (j+1) - tt α (j+1) + (c / (j+1) * dl ε j + ε) := by
        rw [tt_succ, tt_succ, hc]
        field_simp
        ring
      linarith
    · rw [← hc, ← hε]
      have g := norm_add_le ((Matrix.of fun i k => G.rnd (r i k + f i k) : Sq n) - (r + f)) (r + f)
      rw [sub_add_cancel] at g
      refine le_trans g ?_
      rw [hph, pow_succ]
      have : u * ‖r + f‖ ≤ u * ((1 + u) ^ j * ph c ε j + (tt c j + 3 * ε)) := mul_le_mul_of_nonneg_left hrfn u0
      have g2 : (1 + u) * (tt c j + 3 * ε) ≤ (1 + u) ^ j * (1 + u) * (tt c j + 3 * ε) := by
        refine mul_le_mul_of_nonneg_right ?_ hφ0
        nlinarith
      linarith
    · intro J
      rw [← hc, ← hε]
      have e : (Matrix.of fun i k => G.rnd (r i k + f i k) : Sq n) - ∑ i ∈ range (j+1), expTerm a i =
          ((Matrix.of fun i k => G.rnd (r i k + f i k) : Sq n) - (r + f)) + (r - ∑ i ∈ range j, expTerm a i) + (f - expTerm a j) := by
        rw [sum_range_succ]
        abel
      rw [e]
      refine le_trans (norm_add_le _ _) ?_
      refine le_trans (add_le_add_left (norm_add_le _ _) _) ?_
      rw [hph, sum_range_succ, sum_range_succ]
      have g3 := dl_le hε0 j
      have h6 := h6 J
      by_cases hJ : J ≤ j
      · have hN : ‖(Matrix.of fun i k => G.rnd (r i k + f i k) : Sq n) - (r + f)‖ ≤ 1 * ‖f‖ :=
          norm_le_of_entries _ _ zero_le_one fun i k => by
            rw [Matrix.sub_apply, Matrix.add_apply, Matrix.of_apply, one_mul]
            have := H.F.near (r i k + f i k) (h1 i k).rep
            rwa [show r i k - (r i k + f i k) = -f i k by ring, abs_neg] at this
        rw [if_pos hJ, min_eq_right (by omega : J ≤ j + 1)]
        rw [min_eq_right hJ] at h6
        have q : 0 ≤ ((1 + u) ^ J - 1) * (tt c j + 3 * ε) :=
          mul_nonneg (sub_nonneg.2 (one_le_pow₀ (by linarith))) hφ0
        linarith
      · rw [if_neg hJ, min_eq_left (by omega : j + 1 ≤ J), pow_succ]
        rw [min_eq_left (by omega : j ≤ J)] at h6
        have : u * ‖r + f‖ ≤ u * ((1 + u) ^ j * ph c ε j + (tt c j + 3 * ε)) := mul_le_mul_of_nonneg_left hrfn u0
        have g2 : u * (tt c j + 3 * ε) ≤ ((1 + u) ^ j * (1 + u) - 1) * (tt c j + 3 * ε) := by
          refine mul_le_mul_of_nonneg_right ?_ hφ0
          nlinarith
        linarith

/-- the range of the variables -/
theorem inv_range (H : ExpHyp G u η α n N) {a r f : Sq n} (ha : ‖a‖ ≤ α) {j : ℕ} (hj : j ≤ N)
    (h4 : ‖f - expTerm a j‖ ≤ tt (α * (1 + u) ^ (n + 2)) j - tt α j + dl (n * (n + 1) * η) j)
    (h5 : ‖r‖ ≤ (1 + u) ^ j * ph (α * (1 + u) ^ (n + 2)) (n * (n + 1) * η) j) : ‖f‖ ≤ 3 ∧ ‖r‖ ≤ 18 := by
  have he := H.F.eta0
  have hε0 : (0:ℝ) ≤ n * (n + 1) * η := by positivity
  have h1 := term_norm H ha h4
  have h2 := dl_le hε0 j
  have h3 := tt_le_two H.c0 H.c2 j
  have h6 := H.eps_le
  have h7 := H.ph_le hj
  have h8 := H.exp_le
  have h9 := H.pow_le hj
  have h10 := ph_nonneg (j := j) H.c0 hε0
  constructor
  · linarith
  · refine le_trans h5 ?_
    nlinarith

/-- the loop ends exactly when the addition of the next term changes nothing -/
theorem stops_iff (H : ExpHyp G u η α n N) {m w : Mat (XF G)} {r f : Sq n} {j : ℕ}
    (h1 : IsM (expSt n m w j).1 r) (h2 : IsM (expSt n m w j).2.1 f) (hf : ‖f‖ ≤ 3) (hr : ‖r‖ ≤ 18) :
    Stops n m w j ↔ ∀ i k, G.rnd (r i k + f i k) = r i k := by
  have u1 := H.F.u1
  have u0 := H.F.u0
  have hb := H.big
  have hrf : ∀ i k, |r i k + f i k| ≤ 21 := fun i k => by
    have g1 := entry_le_norm r i k
    have g2 := entry_le_norm f i k
    have g3 := abs_add_le (r i k) (f i k)
    linarith
  have hs : ∀ i k, |G.rnd (r i k + f i k)| ≤ 27 := fun i k => by
    have g1 := H.F.add (h1 i k).rep (h2 i k).rep
    have g2 := abs_add_le (G.rnd (r i k + f i k) - (r i k + f i k)) (r i k + f i k)
    rw [sub_add_cancel] at g2
    have := hrf i k
    nlinarith [abs_nonneg (r i k + f i k)]
  have hd : ∀ i k, |G.rnd (G.rnd (r i k + f i k) - r i k)| ≤ G.big := fun i k => by
    have g0 := H.F.add (G.idem (r i k + f i k)) (show G.rnd (-r i k) = -r i k by rw [G.neg, (h1 i k).rep])
    rw [← sub_eq_add_neg] at g0
    have g2 := abs_add_le (G.rnd (G.rnd (r i k + f i k) - r i k) - (G.rnd (r i k + f i k) - r i k)) (G.rnd (r i k + f i k) - r i k)
    rw [sub_add_cancel] at g2
    have g3 : |G.rnd (r i k + f i k) - r i k| ≤ 45 := by
      have := hs i k
      have := entry_le_norm r i k
      have := abs_sub (G.rnd (r i k + f i k)) (r i k)
      linarith
    nlinarith [abs_nonneg (G.rnd (r i k + f i k) - r i k)]
  have key : ∀ p q, p < n → q < n → Is (subM n n (addM n n (expSt n m w j).1 (expSt n m w j).2.1 w) (expSt n m w j).1 w p q)
      ((fun p q => if h : p < n ∧ q < n then G.rnd (G.rnd (r ⟨p, h.1⟩ ⟨q, h.2⟩ + f ⟨p, h.1⟩ ⟨q, h.2⟩) - r ⟨p, h.1⟩ ⟨q, h.2⟩) else 0) p q) := by
    intro p q hp hq
    dsimp only
    rw [dif_pos ⟨hp, hq⟩]
    unfold subM addM pairwiseM
    rw [evalM_apply, if_pos ⟨hp, hq⟩, evalM_apply, if_pos ⟨hp, hq⟩]
    have g1 := h1 ⟨p, hp⟩ ⟨q, hq⟩
    have g2 := h2 ⟨p, hp⟩ ⟨q, hq⟩
    exact (g1.add g2 (by have := hs ⟨p, hp⟩ ⟨q, hq⟩; linarith)).sub g1 (hd _ _)
  unfold Stops
  rw [norm_pos_iff n n _ _ key]
  push Not
  constructor
  · intro h i k
    have := h i k i.2 k.2
    rw [dif_pos ⟨i.2, k.2⟩] at this
    exact H.F.sub_eq_zero (G.idem _) (h1 i k).rep this
  · intro h p q hp hq
    rw [dif_pos ⟨hp, hq⟩, h, sub_self, G.rnd_zero]

/-- from iteration `4(n+2)` on the largest element of the term at least halves -/
theorem term_halves (H : ExpHyp G u η α n N) (a b c s : Sq n) (ha : ‖a‖ ≤ α) (hb : ∀ i j, G.rnd (b i j) = b i j) (κ : ℝ)
    (hκ : 4 * (n + 2) ≤ κ) (hc : ∀ i j, c i j = G.rnd (s i j / κ))
    (hs : ∀ i j, |s i j - ∑ l, a i l * b l j| ≤ ((1 + u) ^ (n + 1) - 1) * ∑ l, |a i l * b l j| + n * (1 + u) ^ n * (η / 2))
    (B : ℝ) (hB : ∀ i j, |b i j| ≤ B) (i j : Fin n) : |c i j| ≤ B / 2 := by
  have u0 := H.F.u0
  have he := H.F.eta0
  obtain ⟨⟨p, q⟩, -, hmax⟩ := Finset.exists_max_image (univ : Finset (Fin n × Fin n)) (fun x => |b x.1 x.2|) ⟨(i, j), mem_univ _⟩
  set x := |b p q| with hx
  have hxr : G.rnd x = x := by
    rcases abs_choice (b p q) with e | e <;> rw [hx, e]
    · exact hb p q
    · rw [G.neg, hb]
  have hx0 : 0 ≤ x := abs_nonneg _
  have hxb : ∀ i j, |b i j| ≤ x := fun i j => hmax (i, j) (mem_univ _)
  have hn0 : (0:ℝ) ≤ n := Nat.cast_nonneg n
  have hκ0 : 0 < κ := by linarith
  have hD : ∑ l, |a i l * b l j| ≤ α * x := by
    calc ∑ l, |a i l * b l j| ≤ ∑ l, |a i l| * x := sum_le_sum fun l _ => by
          rw [abs_mul]; exact mul_le_mul_of_nonneg_left (hxb l j) (abs_nonneg _)
      _ = (∑ l, |a i l|) * x := by rw [sum_mul]
      _ ≤ α * x := mul_le_mul_of_nonneg_right (le_trans (row_le_norm a i) ha) hx0
  have hS : |s i j| ≤ (1 + u) ^ (n + 1) * ∑ l, |a i l * b l j| + n * η := by
    have g1 := abs_add_le (s i j - ∑ l, a i l * b l j) (∑ l, a i l * b l j)
    have g2 : |∑ l, a i l * b l j| ≤ ∑ l, |a i l * b l j| := abs_sum_le_sum_abs _ _
    rw [sub_add_cancel] at g1
    have := hs i j
    have hPn : (1 + u) ^ n ≤ 2 := H.pow_le (by have := H.nN; omega)
    have g3 : n * (1 + u) ^ n * (η / 2) ≤ n * 2 * (η / 2) := by gcongr
    linarith
  have hS2 : |s i j| ≤ 2 * x + n * η := by
    have g1 : (1 + u) ^ (n + 1) * ∑ l, |a i l * b l j| ≤ (1 + u) ^ (n + 1) * (α * x) :=
      mul_le_mul_of_nonneg_left hD (by positivity)
    have g2 : (1 + u) ^ (n + 1) ≤ (1 + u) ^ (n + 2) := pow_le_pow_right₀ (by linarith) (by omega)
    have g3 : (1 + u) ^ (n + 1) * (α * x) ≤ (1 + u) ^ (n + 2) * (α * x) :=
      mul_le_mul_of_nonneg_right g2 (mul_nonneg H.al0 hx0)
    have g4 : (1 + u) ^ (n + 2) * (α * x) ≤ 2 * x := by
      rw [← mul_assoc, mul_comm _ α]
      exact mul_le_mul_of_nonneg_right H.c2 hx0
    linarith
  have hcx : |c i j| ≤ x / 2 := by
    rw [hc]
    rcases eq_or_lt_of_le hx0 with e0 | h0
    · have g1 : |s i j / κ| ≤ η / 4 := by
        rw [abs_div, abs_of_pos hκ0, div_le_iff₀ hκ0]
        nlinarith
      have g2 := H.F.abs_rnd (s i j / κ)
      have g3 : G.rnd (s i j / κ) = 0 := H.F.tiny (G.idem _) (by nlinarith [H.F.u1, abs_nonneg (s i j / κ)])
      rw [g3, abs_zero]
      linarith
    · have hη : η ≤ x := by
        by_contra hlt
        push Not at hlt
        have := H.F.tiny hxr (by rw [abs_of_nonneg hx0]; exact hlt)
        linarith
      refine H.F.quarter hxr hx0 ?_
      rw [abs_div, abs_of_pos hκ0, div_le_iff₀ hκ0]
      nlinarith
  have := hB p q
  linarith

theorem stops_of_zero (H : ExpHyp G u η α n N) {m w : Mat (XF G)} {r f : Sq n} {j : ℕ}
    (h1 : IsM (expSt n m w j).1 r) (h2 : IsM (expSt n m w j).2.1 f) (hr : ‖r‖ ≤ 18) (h0 : ∀ i k, f i k = 0) : Stops n m w j := by
  have hf : f = 0 := Matrix.ext h0
  rw [stops_iff H h1 h2 (by rw [hf, norm_zero]; norm_num) hr]
  intro i k
  rw [h0, add_zero]
  exact (h1 i k).rep

/-- the loop ends: after `4(n+2)` iterations the terms halve until they underflow to zero -/
theorem exp_ends (H : ExpHyp G u η α n N) (m w : Mat (XF G)) (a : Sq n) (hm : IsM m a) (ha : ‖a‖ ≤ α) (i : ℕ)
    (hi : 3 < 2 ^ i * η) (hN : 4 * (n + 2) + i ≤ N) : Stops n m w (4 * (n + 2) + i) := by
  have u0 := H.F.u0
  have he := H.F.eta0
  have hn0 : (0:ℝ) ≤ n := Nat.cast_nonneg n
  have key : ∀ t, t ≤ i → ∃ f : Sq n, IsM (expSt n m w (4 * (n + 2) + t)).2.1 f ∧ ∀ p q, |f p q| ≤ 3 / 2 ^ t := by
    intro t
    induction t with
    | zero =>
      intro _
      obtain ⟨r, f, h1, h2, h3, h4, h5, h6⟩ := exp_inv H m w a hm ha (4 * (n + 2)) (by omega)
      refine ⟨f, h2, fun p q => ?_⟩
      rw [pow_zero, div_one]
      exact le_trans (entry_le_norm f p q) (inv_range H ha (by omega) h4 h5).1
    | succ t ih =>
      intro ht
      obtain ⟨f, g1, g2⟩ := ih (by omega)
      obtain ⟨r, f', h1, h2, h3, h4, h5, h6⟩ := exp_inv H m w a hm ha (4 * (n + 2) + t) (by omega)
      have e : f' = f := Matrix.ext fun p q => (h2 p q).inj (g1 p q)
      rw [e] at h4
      have hf := (inv_range H ha (by omega) h4 h5).1
      have hκ : (4:ℝ) * (n + 2) ≤ ((4 * (n + 2) + t : ℕ):ℝ) + 1 := by
        push_cast
        linarith [(Nat.cast_nonneg t : (0:ℝ) ≤ t)]
      have hκ1 : (1:ℝ) ≤ ((4 * (n + 2) + t : ℕ):ℝ) + 1 := by linarith
      have hα2 : α ≤ 2 := le_trans H.alc H.c2
      obtain ⟨b, s, b1, b2, b3⟩ := step_term H.F m (expSt n m w (4 * (n + 2) + t)).2.1 w a f hm g1 _ _ h3 hκ1
        (H.pow_le H.nN) (by nlinarith [norm_nonneg a, norm_nonneg f]) (by linarith [H.eps_le]) H.eta1 H.big
      refine ⟨b, b1, fun p q => ?_⟩
      have := term_halves H a f b s ha (fun p q => (g1 p q).rep) _ hκ b2 b3 _ g2 p q
      rw [pow_succ, ← div_div]
      exact this
  obtain ⟨f, g1, g2⟩ := key i (le_refl _)
  obtain ⟨r, f', h1, h2, h3, h4, h5, h6⟩ := exp_inv H m w a hm ha (4 * (n + 2) + i) hN
  refine stops_of_zero H h1 g1 (inv_range H ha hN h4 h5).2 fun p q => ?_
  refine H.F.tiny (g1 p q).rep (lt_of_le_of_lt (g2 p q) ?_)
  rw [div_lt_iff₀ (by positivity)]
  linarith

/-- a tail of the two exponential series -/
theorem sum_tt_sub {α c : ℝ} (h0 : 0 ≤ α) (h : α ≤ c) (k : ℕ) : ∑ i ∈ range k, (tt c i - tt α i) ≤ Real.exp c * (c - α) := by
  have hs : HasSum (fun i => tt c i - tt α i) (Real.exp c - Real.exp α) := by
    have e : ∀ x : ℝ, HasSum (fun i => tt x i) (Real.exp x) := fun x => by
      have := NormedSpace.expSeries_div_hasSum_exp (𝔸 := ℝ) x
      rw [← Real.exp_eq_exp_ℝ] at this
      exact this
    exact (e c).sub (e α)
  have h1 : ∑ i ∈ range k, (tt c i - tt α i) ≤ Real.exp c - Real.exp α :=
    sum_le_hasSum _ (fun i _ => by linarith [tt_mono h0 h i]) hs
  have h2 : Real.exp α = Real.exp c * Real.exp (α - c) := by rw [← Real.exp_add]; congr 1; ring
  have h3 := Real.add_one_le_exp (α - c)
  have h4 := Real.exp_pos c
  nlinarith

theorem pow_sub_one (u0 : 0 ≤ u) (k : ℕ) (hk : k * u ≤ 1 / 2) : (1 + u) ^ k - 1 ≤ 2 * (k * u) := by
  have h1 : (1 + u) ^ k ≤ Real.exp (k * u) := by
    rw [Real.exp_nat_mul]
    exact pow_le_pow_left₀ (by linarith) (by linarith [Real.add_one_le_exp u]) k
  have hku : 0 ≤ k * u := by positivity
  have h2 := Real.add_one_le_exp (-(k * u))
  have h3 : Real.exp (k * u) * Real.exp (-(k * u)) = 1 := by rw [← Real.exp_add, add_neg_cancel, Real.exp_zero]
  have h4 := Real.exp_pos (k * u)
  have : Real.exp (k * u) ≤ 1 + 2 * (k * u) := by
    have h5 : Real.exp (k * u) * (1 - k * u) ≤ 1 := by nlinarith
    by_contra hlt
    push Not at hlt
    nlinarith
  linarith

theorem tt_add_le {c : ℝ} (h : 0 ≤ c) (j i : ℕ) : tt c (i + j) ≤ tt c j * tt c i := by
  unfold tt
  rw [div_mul_div_comm, ← pow_add, add_comm j i]
  refine div_le_div_of_nonneg_left (by positivity) (by positivity) ?_
  have := Nat.factorial_mul_factorial_dvd_factorial_add i j
  rw [mul_comm]
  exact_mod_cast Nat.le_of_dvd (Nat.factorial_pos _) this

/-- the tail of the series -/
theorem sum_tail_le {c ε : ℝ} (h : 0 ≤ c) (hε : 0 ≤ ε) (J K : ℕ) :
    ∑ i ∈ range K, (if J ≤ i then tt c i + 3 * ε else 0) ≤ tt c J * Real.exp c + K * (3 * ε) := by
  have h1 : ∀ K, ∑ i ∈ range K, (if J ≤ i then tt c i else 0) ≤ tt c J * ∑ i ∈ range (K - J), tt c i := by
    intro K
    induction K with
    | zero => simp
    | succ K ih =>
      rw [sum_range_succ]
      by_cases hJ : J ≤ K
      · rw [if_pos hJ, Nat.succ_sub hJ, sum_range_succ, mul_add]
        have := tt_add_le h J (K - J)
        rw [Nat.sub_add_cancel hJ] at this
        linarith
      · rw [if_neg hJ, add_zero, show K + 1 - J = K - J by omega]
        exact ih
  have h2 : ∑ i ∈ range (K - J), tt c i ≤ Real.exp c := Real.sum_le_exp_of_nonneg h _
  have h3 : ∑ i ∈ range K, (if J ≤ i then tt c i + 3 * ε else 0) ≤ ∑ i ∈ range K, ((if J ≤ i then tt c i else 0) + 3 * ε) :=
    sum_le_sum fun i _ => by split <;> linarith
  rw [sum_add_distrib, sum_const, card_range, nsmul_eq_mul] at h3
  have h4 := mul_le_mul_of_nonneg_left h2 (tt_nonneg h J)
  linarith [h1 K]

/-- bound on the error of `exp_taylor` for a matrix of norm at most `α`: the rounding errors of the first `J` iterations and of the
terms, the part of the series after its first `J` terms, and the effect of underflow in the `K` iterations -/
noncomputable def expBound (u η α : ℝ) (n J K : ℕ) : ℝ :=
  let c := α * (1 + u) ^ (n + 2)
  let A := Real.exp c
  u * (2 * J * (A + 1) + 2 * (n + 2) * α * A * A + 3 * A * (A + 1)) + c ^ J / J ! * A + 3 * (2 * K + A) * (n * (n + 1) * η)

theorem exp_stop_error (H : ExpHyp G u η α n N) (m w : Mat (XF G)) (a : Sq n) (hm : IsM m a) (ha : ‖a‖ ≤ α) (K : ℕ) (hK : K ≤ N)
    (hs : Stops n m w K) : ∃ R : Sq n, IsM (expSt n m w K).1 R ∧ ∀ J, ‖R - NormedSpace.exp a‖ ≤ expBound u η α n J K := by
  have u0 := H.F.u0
  have u1 := H.F.u1
  have he := H.F.eta0
  obtain ⟨r, f, h1, h2, h3, h4, h5, h6⟩ := exp_inv H m w a hm ha K hK
  obtain ⟨hf, hr⟩ := inv_range H ha hK h4 h5
  refine ⟨r, h1, fun J => ?_⟩
  rw [stops_iff H h1 h2 hf hr] at hs
  unfold expBound
  dsimp only
  have h6 := h6 J
  have hph := H.ph_le hK
  have hc2 := H.c2
  have hPK := H.pow_le hK
  have hK1 : (1:ℝ) ≤ (1 + u) ^ K := one_le_pow₀ (by linarith)
  have hPn := pow_sub_one u0 (n + 2) (by
    have h8 : ((n + 2 : ℕ):ℝ) ≤ N := by exact_mod_cast H.nN
    nlinarith [H.Nu])
  have hPk : (1 + u) ^ min K J - 1 ≤ 2 * (J * u) := by
    refine le_trans (pow_sub_one u0 (min K J) ?_) ?_
    · have h8 : ((min K J : ℕ):ℝ) ≤ N := by exact_mod_cast (le_trans (min_le_left K J) hK)
      nlinarith [H.Nu]
    · have h8 : ((min K J : ℕ):ℝ) ≤ J := by exact_mod_cast (min_le_right K J)
      nlinarith
  have hαc := H.alc
  have hc0 := H.c0
  have hcα : α * (1 + u) ^ (n + 2) - α ≤ α * (2 * ((n + 2) * u)) := by
    have := mul_le_mul_of_nonneg_left hPn H.al0
    push_cast at this
    linarith
  set c := α * (1 + u) ^ (n + 2) with hc
  set ε : ℝ := n * (n + 1) * η with hε
  have hε0 : 0 ≤ ε := by positivity
  set A := Real.exp c with hA
  have hA1 : 1 ≤ A := Real.one_le_exp hc0
  have hph0 := ph_nonneg (j := K) hc0 hε0
  -- the neglected term
  have hfe : ‖f‖ ≤ (4 / 3 * u) * ‖r‖ := by
    refine norm_le_of_entries f r (by positivity) fun i k => ?_
    have g := H.F.add (h1 i k).rep (h2 i k).rep
    rw [hs i k, show r i k - (r i k + f i k) = -f i k by ring, abs_neg] at g
    have g2 := abs_add_le (r i k) (f i k)
    have g3 := abs_nonneg (f i k)
    have g4 := abs_nonneg (r i k)
    nlinarith
  have hrA : ‖r‖ ≤ 2 * (A + 1) := le_trans h5 (by nlinarith)
  have hdl := dl_le hε0 K
  have htK : ‖expTerm a K‖ ≤ 8 / 3 * u * (A + 1) + (tt c K - tt α K) + 3 * ε := by
    have g := norm_sub_le f (f - expTerm a K)
    rw [sub_sub_cancel] at g
    have : (4 / 3 * u) * ‖r‖ ≤ (4 / 3 * u) * (2 * (A + 1)) := mul_le_mul_of_nonneg_left hrA (by positivity)
    linarith
  have htail := TooN.exp_tail norm_one_le a K
  have hea : Real.exp ‖a‖ ≤ A := Real.exp_le_exp.2 (le_trans ha hαc)
  have htail2 : ‖NormedSpace.exp a - ∑ i ∈ range K, expTerm a i‖ ≤ (8 / 3 * u * (A + 1) + (tt c K - tt α K) + 3 * ε) * A :=
    le_trans htail (mul_le_mul htK hea (Real.exp_pos _).le (le_trans (norm_nonneg _) htK))
  have e : r - NormedSpace.exp a = (r - ∑ i ∈ range K, expTerm a i) - (NormedSpace.exp a - ∑ i ∈ range K, expTerm a i) := by abel
  rw [e]
  refine le_trans (norm_sub_le _ _) ?_
  have hsum := sum_tt_sub H.al0 hαc (K + 1)
  rw [sum_range_succ] at hsum
  rw [sum_add_distrib (f := fun i => tt c i - tt α i), sum_const, card_range, nsmul_eq_mul] at h6
  have g0 : 0 ≤ ∑ i ∈ range K, (tt c i - tt α i) := sum_nonneg fun i _ => by linarith [tt_mono H.al0 hαc i]
  have g5 := sum_tail_le hc0 hε0 J K
  rw [← hA] at g5
  have ett : c ^ J / (J ! : ℝ) = tt c J := rfl
  rw [ett]
  have g1 : ((1 + u) ^ min K J - 1) * ph c ε K ≤ 2 * (J * u) * (A + 1) :=
    mul_le_mul hPk hph hph0 (by positivity)
  have g2 : A * (c - α) ≤ A * (α * (2 * ((n + 2) * u))) := mul_le_mul_of_nonneg_left hcα (by linarith)
  have g3 : ∑ i ∈ range K, (tt c i - tt α i) + (tt c K - tt α K) * A ≤ A * (α * (2 * ((n + 2) * u))) * A := by
    have q1 : ∑ i ∈ range K, (tt c i - tt α i) ≤ (∑ i ∈ range K, (tt c i - tt α i)) * A := le_mul_of_one_le_right g0 hA1
    have q2 := mul_le_mul_of_nonneg_right (le_trans hsum g2) (show 0 ≤ A by linarith)
    rw [add_mul] at q2
    exact le_trans (add_le_add_left q1 _) q2
  have g4 : 8 / 3 * u * (A + 1) * A ≤ u * (3 * A * (A + 1)) := by
    have : 0 ≤ u * (A * (A + 1)) := by positivity
    linarith
  linarith

/-- `exp_taylor` ends, and what it returns is close to the exponential -/
theorem expTaylor_total (H : ExpHyp G u η α n N) (m w : Mat (XF G)) (a : Sq n) (hm : IsM m a) (ha : ‖a‖ ≤ α) (i : ℕ)
    (hi : 3 < 2 ^ i * η) (hN : 4 * (n + 2) + i ≤ N) (fuel : ℕ) (hf : 4 * (n + 2) + i < fuel) :
    ∃ K M R, K ≤ 4 * (n + 2) + i ∧ expTaylor XF.abs n m w fuel = some M ∧ IsM (n := n) M R ∧
      ∀ J, ‖R - NormedSpace.exp a‖ ≤ expBound u η α n J K := by
  obtain ⟨L, l1, l2, l3⟩ := expTaylor_stops m w _ fuel (exp_ends H m w a hm ha i hi hN) hf
  obtain ⟨R, r1, r2⟩ := exp_stop_error H m w a hm ha L (by omega) l2
  exact ⟨L, _, R, l1, l3, r1, r2⟩

end TooN.Special
