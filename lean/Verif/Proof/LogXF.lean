import Verif.Proof.ExpSq
/-!
# The loop of `log_taylor` in a floating-point format
-/
set_option linter.unusedSectionVars false
namespace TooN.Special
open TooN.Ops Finset TooN.MatFun
open scoped Classical Nat
open scoped Matrix.Norms.Operator

variable {G : Grid} {u η : ℝ} {n : ℕ}

/-- the addition of `A` to `R` changes nothing, as the test of the loops sees it -/
theorem unchanged_iff (F : Fmt G u η) (hb : 64 ≤ G.big) {R A w : Mat (XF G)} {r f : Sq n} (h1 : IsM R r) (h2 : IsM A f) (hf : ‖f‖ ≤ 3)
    (hr : ‖r‖ ≤ 18) :
    ¬ 0 < normInfM XF.abs n n (subM n n (addM n n R A w) R w) ↔ ∀ i k, G.rnd (r i k + f i k) = r i k := by
  have u1 := F.u1
  have u0 := F.u0
  have hrf : ∀ i k, |r i k + f i k| ≤ 21 := fun i k => by
    have g1 := entry_le_norm r i k
    have g2 := entry_le_norm f i k
    have g3 := abs_add_le (r i k) (f i k)
    linarith
  have hs : ∀ i k, |G.rnd (r i k + f i k)| ≤ 27 := fun i k => by
    have g1 := F.add (h1 i k).rep (h2 i k).rep
    have g2 := abs_add_le (G.rnd (r i k + f i k) - (r i k + f i k)) (r i k + f i k)
    rw [sub_add_cancel] at g2
    have := hrf i k
    nlinarith [abs_nonneg (r i k + f i k)]
  have hd : ∀ i k, |G.rnd (G.rnd (r i k + f i k) - r i k)| ≤ G.big := fun i k => by
    have g0 := F.add (G.idem (r i k + f i k)) (show G.rnd (-r i k) = -r i k by rw [G.neg, (h1 i k).rep])
    rw [← sub_eq_add_neg] at g0
    have g2 := abs_add_le (G.rnd (G.rnd (r i k + f i k) - r i k) - (G.rnd (r i k + f i k) - r i k)) (G.rnd (r i k + f i k) - r i k)
    rw [sub_add_cancel] at g2
    have g3 : |G.rnd (r i k + f i k) - r i k| ≤ 45 := by
      have := hs i k
      have := entry_le_norm r i k
      have := abs_sub (G.rnd (r i k + f i k)) (r i k)
      linarith
    nlinarith [abs_nonneg (G.rnd (r i k + f i k) - r i k)]
  have key : ∀ p q, p < n → q < n → Is (subM n n (addM n n R A w) R w p q)
      ((fun p q => if h : p < n ∧ q < n then G.rnd (G.rnd (r ⟨p, h.1⟩ ⟨q, h.2⟩ + f ⟨p, h.1⟩ ⟨q, h.2⟩) - r ⟨p, h.1⟩ ⟨q, h.2⟩) else 0) p q) := by
    intro p q hp hq
    dsimp only
    rw [dif_pos ⟨hp, hq⟩]
    unfold subM addM pairwiseM
    rw [evalM_apply, if_pos ⟨hp, hq⟩, evalM_apply, if_pos ⟨hp, hq⟩]
    have g1 := h1 ⟨p, hp⟩ ⟨q, hq⟩
    have g2 := h2 ⟨p, hp⟩ ⟨q, hq⟩
    exact (g1.add g2 (by have := hs ⟨p, hp⟩ ⟨q, hq⟩; linarith)).sub g1 (hd _ _)
  rw [norm_pos_iff n n _ _ key]
  push Not
  constructor
  · intro h i k
    have := h i k i.2 k.2
    rw [dif_pos ⟨i.2, k.2⟩] at this
    exact F.sub_eq_zero (G.idem _) (h1 i k).rep this
  · intro h p q hp hq
    rw [dif_pos ⟨hp, hq⟩, h, sub_self, G.rnd_zero]

/-- the addition of a term: the sum, and its error two ways -/
theorem add_step (F : Fmt G u η) (hb : 64 ≤ G.big) {R A w : Mat (XF G)} {r f : Sq n} (h1 : IsM R r) (h2 : IsM A f) (hf : ‖f‖ ≤ 3)
    (hr : ‖r‖ ≤ 18) :
    ∃ s : Sq n, IsM (addM n n R A w) s ∧ ‖s - (r + f)‖ ≤ u * ‖r + f‖ ∧ ‖s - (r + f)‖ ≤ ‖f‖ := by
  have u1 := F.u1
  refine ⟨Matrix.of fun i k => G.rnd (r i k + f i k), ?_, ?_, ?_⟩
  · intro i k
    unfold addM pairwiseM
    rw [evalM_apply, if_pos ⟨i.2, k.2⟩]
    refine (h1 i k).add (h2 i k) ?_
    have g1 := F.add (h1 i k).rep (h2 i k).rep
    have g2 := abs_add_le (G.rnd (r i k + f i k) - (r i k + f i k)) (r i k + f i k)
    rw [sub_add_cancel] at g2
    have g3 := entry_le_norm r i k
    have g4 := entry_le_norm f i k
    have g5 := abs_add_le (r i k) (f i k)
    nlinarith [abs_nonneg (r i k + f i k)]
  · exact norm_le_of_entries _ _ F.u0 fun i k => by
      rw [Matrix.sub_apply, Matrix.add_apply, Matrix.of_apply]
      exact F.add (h1 i k).rep (h2 i k).rep
  · have := norm_le_of_entries ((Matrix.of fun i k => G.rnd (r i k + f i k) : Sq n) - (r + f)) f zero_le_one fun i k => by
      rw [Matrix.sub_apply, Matrix.add_apply, Matrix.of_apply, one_mul]
      have := F.near (r i k + f i k) (h1 i k).rep
      rwa [show r i k - (r i k + f i k) = -f i k by ring, abs_neg] at this
    rwa [one_mul] at this

/-- division of a matrix by a number -/
theorem div_step (F : Fmt G u η) (A w : Mat (XF G)) (f : Sq n) (hA : IsM A f) (k : XF G) (κ : ℝ) (hk : Is k κ) (hκ : 1 ≤ κ)
    (hf : ‖f‖ ≤ 3) (hη : η ≤ 1) (hb : 64 ≤ G.big) :
    IsM (applyScalarM (· / ·) n n A k w) (Matrix.of fun i j => G.rnd (f i j / κ) : Sq n) ∧
      ‖(Matrix.of fun i j => G.rnd (f i j / κ) : Sq n) - (1 / κ) • f‖ ≤ u * (‖f‖ / κ) + n * (η / 2) := by
  have u0 := F.u0
  have he := F.eta0
  have hκ0 : 0 < κ := by linarith
  constructor
  · intro i j
    unfold applyScalarM
    rw [evalM_apply, if_pos ⟨i.2, j.2⟩, Matrix.of_apply]
    refine (hA i j).div hk hκ0.ne' ?_
    have h1 := F.abs_rnd (f i j / κ)
    have h2 : |f i j / κ| ≤ 3 := by
      rw [abs_div, abs_of_pos hκ0]
      exact le_trans (div_le_self (abs_nonneg _) hκ) (le_trans (entry_le_norm f i j) hf)
    have := F.u1
    nlinarith [abs_nonneg (f i j / κ)]
  · refine norm_le_rows _ (by positivity) fun i => ?_
    have : ∀ j, |((Matrix.of fun i j => G.rnd (f i j / κ) : Sq n) - (1 / κ) • f) i j| ≤ u * (|f i j| / κ) + η / 2 := by
      intro j
      rw [Matrix.sub_apply, Matrix.smul_apply, Matrix.of_apply, smul_eq_mul, one_div, inv_mul_eq_div]
      have := F.err (f i j / κ)
      rwa [abs_div, abs_of_pos hκ0] at this
    refine le_trans (sum_le_sum fun j _ => this j) ?_
    rw [sum_add_distrib, ← mul_sum, ← sum_div, sum_const, card_univ, Fintype.card_fin, nsmul_eq_mul]
    have := row_le_norm f i
    have h2 : u * ((∑ j, |f i j|) / κ) ≤ u * (‖f‖ / κ) := mul_le_mul_of_nonneg_left (div_le_div_of_nonneg_right this hκ0.le) u0
    linarith

theorem neg_is (hb : 2 ≤ G.big) (A w w' : Mat (XF G)) (f : Sq n) (hA : IsM A f) : IsM (negM n n A w w') (-f) := by
  intro i j
  unfold negM applyScalarM
  rw [evalM_apply, if_pos ⟨i.2, j.2⟩, evalM_apply, if_pos ⟨i.2, j.2⟩]
  have h := (hA i j)
  have e : G.rnd (f i j * -1) = -f i j := by rw [mul_neg_one, G.neg, h.rep]
  have := h.mul is_one.neg (by rw [e, abs_neg]; exact h.le)
  rw [e] at this
  exact this

/-- `X = m - Identity*1.0` -/
theorem minusId_is (F : Fmt G u η) (m w : Mat (XF G)) (a : Sq n) (hm : IsM m a) (ha : ‖a - 1‖ ≤ 1) (hb : 64 ≤ G.big) :
    ∃ x : Sq n, IsM (minusId n m w) x ∧ ‖x - (a - 1)‖ ≤ u * ‖a - 1‖ := by
  have u0 := F.u0
  refine ⟨Matrix.of fun i j => if i = j then G.rnd (a i j - 1) else a i j, ?_, ?_⟩
  · intro i j
    unfold minusId addIdentityEval
    rw [forN_diagupd n (fun _ x => x + -1)]
    by_cases e : i = j
    · subst e
      rw [if_pos ⟨rfl, i.2⟩, evalM_apply, if_pos ⟨i.2, i.2⟩, if_neg (by simp), Matrix.of_apply, if_pos rfl]
      have := (hm i i).add is_one.neg (by
        rw [← sub_eq_add_neg]
        have g1 := entry_le_norm (a - 1) i i
        rw [Matrix.sub_apply, Matrix.one_apply_eq] at g1
        have g2 := F.add (hm i i).rep (show G.rnd (-1) = -1 by rw [G.neg, (is_one (G := G)).rep])
        rw [← sub_eq_add_neg] at g2
        have g3 := abs_add_le (G.rnd (a i i - 1) - (a i i - 1)) (a i i - 1)
        rw [sub_add_cancel] at g3
        have := F.u1
        nlinarith [abs_nonneg (a i i - 1)])
      rw [← sub_eq_add_neg (a i i)] at this
      exact this
    · rw [if_neg (fun h => e (Fin.ext h.1)), evalM_apply, if_pos ⟨i.2, j.2⟩, if_neg (by simp), Matrix.of_apply, if_neg e]
      exact hm i j
  · refine norm_le_of_entries _ _ u0 fun i j => ?_
    rw [Matrix.sub_apply, Matrix.sub_apply, Matrix.of_apply]
    by_cases e : i = j
    · subst e
      rw [if_pos rfl, Matrix.one_apply_eq]
      have g2 := F.add (hm i i).rep (show G.rnd (-1) = -1 by rw [G.neg, (is_one (G := G)).rep])
      rw [← sub_eq_add_neg] at g2
      exact g2
    · rw [if_neg e, Matrix.one_apply_ne e, sub_zero, sub_self, abs_zero]
      positivity

/-! ### The loop -/

/-- the variables `sum`, `F`, `k` of `log_taylor` after `j` iterations -/
noncomputable def logSt (n : ℕ) (X w : Mat (XF G)) : ℕ → Mat (XF G) × Mat (XF G) × XF G
  | 0 => (zerosM n n w, X, 1)
  | j+1 => (addM n n (logSt n X w j).1 (applyScalarM (· / ·) n n (logSt n X w j).2.1 (logSt n X w j).2.2 w) (logSt n X w j).1,
      mulMM n n n (negM n n (logSt n X w j).2.1 w w) X w, (logSt n X w j).2.2 + 1)

/-- the loop ends before iteration `j` -/
def LStops (n : ℕ) (X w : Mat (XF G)) (j : ℕ) : Prop :=
  ¬ 0 < normInfM XF.abs n n (subM n n (addM n n (logSt n X w j).1
    (applyScalarM (· / ·) n n (logSt n X w j).2.1 (logSt n X w j).2.2 w) w) (logSt n X w j).1 w)

theorem logLoop_stops (X w : Mat (XF G)) (K : ℕ) (hK : LStops n X w K) (fuel : ℕ) : ∀ j, j ≤ K → K < j + fuel →
    ∃ L, j ≤ L ∧ L ≤ K ∧ LStops n X w L ∧
      logTaylorLoop XF.abs n X w fuel (logSt n X w j).1 (logSt n X w j).2.1 (logSt n X w j).2.2 = some (logSt n X w L).1 := by
  induction fuel with
  | zero => intro j h1 h2; omega
  | succ fuel ih =>
    intro j h1 h2
    by_cases h : LStops n X w j
    · refine ⟨j, le_refl _, h1, h, ?_⟩
      unfold logTaylorLoop
      rw [if_neg h]
    · have hne : j ≠ K := fun e => h (e ▸ hK)
      obtain ⟨L, l1, l2, l3, l4⟩ := ih (j+1) (by omega) (by omega)
      refine ⟨L, by omega, l2, l3, ?_⟩
      unfold logTaylorLoop
      rw [if_pos (not_not.1 h)]
      exact l4

/-- the `j`-th term of the series of `log(1+X)` -/
noncomputable def lterm (X : Sq n) (j : ℕ) : Sq n := ((-1 : ℝ) ^ j / (j + 1)) • X ^ (j + 1)

/-- the conditions under which the loop is analysed -/
structure LogHyp (G : Grid) (u η ξ : ℝ) (n N : ℕ) : Prop where
  F : Fmt G u η
  xi0 : 0 ≤ ξ
  c : ξ * (1 + u) ^ (n + 1) ≤ 2 / 3
  Nu : N * u ≤ 1 / 2
  nN : n + 1 ≤ N
  eps : 5 * N * (n * n * η) ≤ 1
  eta1 : η ≤ 1
  big : 64 ≤ G.big
  bigN : N + 1 ≤ G.big

variable {ξ : ℝ} {N : ℕ}

theorem LogHyp.pow_le (H : LogHyp G u η ξ n N) {j : ℕ} (hj : j ≤ N) : (1 + u) ^ j ≤ 2 :=
  le_trans (pow_le_pow_right₀ (by linarith [H.F.u0]) hj) (pow_le_two H.F.u0 N H.Nu)

theorem LogHyp.c0 (H : LogHyp G u η ξ n N) : 0 ≤ ξ * (1 + u) ^ (n + 1) := by
  have := H.xi0
  have := H.F.u0
  positivity

theorem LogHyp.xic (H : LogHyp G u η ξ n N) : ξ ≤ ξ * (1 + u) ^ (n + 1) := by
  have h : (1:ℝ) ≤ (1 + u) ^ (n + 1) := one_le_pow₀ (by linarith [H.F.u0])
  nlinarith [H.xi0]

theorem LogHyp.eps_le (H : LogHyp G u η ξ n N) : n * n * η ≤ 1 / 5 := by
  have he := H.F.eta0
  have h1 : (0:ℝ) ≤ n * n * η := by positivity
  have h2 : (1:ℝ) ≤ N := by
    have := H.nN
    exact_mod_cast (by omega : 1 ≤ N)
  have := H.eps
  nlinarith

theorem LogHyp.nη (H : LogHyp G u η ξ n N) : n * (η / 2) ≤ (n * n * η) / 2 := by
  have he := H.F.eta0
  rcases Nat.eq_zero_or_pos n with h | h
  · subst h; simp
  · have : (1:ℝ) ≤ n := by exact_mod_cast h
    have : n * η ≤ n * n * η := mul_le_mul_of_nonneg_right (by nlinarith) he.le
    linarith

/-- bound on the norm of the `j`-th term -/
noncomputable def lφ (u c ε : ℝ) (j : ℕ) : ℝ := (1 + u) * c ^ (j + 1) / (j + 1) + 5 * ε

/-- bound on the error of the `j`-th term -/
noncomputable def ld (u c ξ ε : ℝ) (j : ℕ) : ℝ := ((1 + u) * c ^ (j + 1) - ξ ^ (j + 1)) / (j + 1) + 5 * ε

theorem lφ_nonneg {u c ε : ℝ} (hu : 0 ≤ u) (hc : 0 ≤ c) (he : 0 ≤ ε) (j : ℕ) : 0 ≤ lφ u c ε j := by unfold lφ; positivity

/-- the state after `j ≤ N` iterations -/
def LogInv (u η ξ : ℝ) (x : Sq n) (st : Mat (XF G) × Mat (XF G) × XF G) (j : ℕ) : Prop :=
  ∃ r f : Sq n, IsM st.1 r ∧ IsM st.2.1 f ∧ Is st.2.2 (j + 1) ∧
    ‖f - ((-1 : ℝ) ^ j) • x ^ (j + 1)‖ ≤ (ξ * (1 + u) ^ (n + 1)) ^ (j + 1) - ξ ^ (j + 1) + 3 * (n * n * η) ∧
    ‖r‖ ≤ (1 + u) ^ j * ∑ i ∈ range j, lφ u (ξ * (1 + u) ^ (n + 1)) (n * n * η) i ∧
    ∀ J, ‖r - TooN.logPartial x j‖ ≤
      ((1 + u) ^ min j J - 1) * ∑ i ∈ range j, lφ u (ξ * (1 + u) ^ (n + 1)) (n * n * η) i +
      ∑ i ∈ range j, (if J ≤ i then lφ u (ξ * (1 + u) ^ (n + 1)) (n * n * η) i else 0) +
      ∑ i ∈ range j, ld u (ξ * (1 + u) ^ (n + 1)) ξ (n * n * η) i

theorem geom_le {c : ℝ} (h0 : 0 ≤ c) (h : c < 1) (j : ℕ) : ∑ i ∈ range j, c ^ i ≤ (1 - c)⁻¹ := by
  have := sum_le_hasSum (range j) (fun i _ => pow_nonneg h0 i) (hasSum_geometric_of_lt_one h0 h)
  exact this

theorem sum_pow_div_le {c : ℝ} (h0 : 0 ≤ c) (h : c < 1) (j : ℕ) : ∑ i ∈ range j, c ^ (i + 1) / ((i:ℝ) + 1) ≤ c * (1 - c)⁻¹ := by
  have h1 : ∀ i ∈ range j, c ^ (i + 1) / ((i:ℝ) + 1) ≤ c * c ^ i := fun i _ => by
    rw [pow_succ, mul_comm (c ^ i)]
    exact div_le_self (by positivity) (by linarith [(Nat.cast_nonneg i : (0:ℝ) ≤ i)])
  refine le_trans (sum_le_sum h1) ?_
  rw [← mul_sum]
  exact mul_le_mul_of_nonneg_left (geom_le h0 h j) h0

theorem sum_lφ_le (hu : 0 ≤ u) {c ε : ℝ} (h0 : 0 ≤ c) (h : c < 1) (j : ℕ) :
    ∑ i ∈ range j, lφ u c ε i ≤ (1 + u) * (c * (1 - c)⁻¹) + j * (5 * ε) := by
  unfold lφ
  rw [sum_add_distrib, sum_const, card_range, nsmul_eq_mul]
  have e : ∑ i ∈ range j, (1 + u) * c ^ (i + 1) / ((i:ℝ) + 1) = (1 + u) * ∑ i ∈ range j, c ^ (i + 1) / ((i:ℝ) + 1) := by
    rw [mul_sum]
    exact sum_congr rfl fun i _ => by rw [mul_div_assoc]
  rw [e]
  have := mul_le_mul_of_nonneg_left (sum_pow_div_le h0 h j) (show 0 ≤ 1 + u by linarith)
  linarith

theorem LogHyp.sum_le (H : LogHyp G u η ξ n N) {j : ℕ} (hj : j ≤ N) :
    ∑ i ∈ range j, lφ u (ξ * (1 + u) ^ (n + 1)) (n * n * η) i ≤ 4 := by
  have he := H.F.eta0
  have hc := H.c
  have hc0 := H.c0
  refine le_trans (sum_lφ_le H.F.u0 hc0 (by linarith) j) ?_
  set c := ξ * (1 + u) ^ (n + 1)
  have h1 : c * (1 - c)⁻¹ ≤ 2 := by
    rw [← div_eq_mul_inv, div_le_iff₀ (by linarith)]
    linarith
  have h2 : 0 ≤ c * (1 - c)⁻¹ := mul_nonneg hc0 (inv_nonneg.2 (by linarith))
  have h3 : (j:ℝ) ≤ N := by exact_mod_cast hj
  have h4 : (0:ℝ) ≤ n * n * η := by positivity
  have := H.eps
  have := H.F.u1
  nlinarith

/-- what the invariant says about the term that is added next -/
theorem log_term (H : LogHyp G u η ξ n N) {x : Sq n} (hx : ‖x‖ ≤ ξ) {w : Mat (XF G)} {j : ℕ} {Fm : Mat (XF G)} {k : XF G} {f : Sq n}
    (h2 : IsM Fm f) (h3 : Is k (j + 1))
    (h4 : ‖f - ((-1 : ℝ) ^ j) • x ^ (j + 1)‖ ≤ (ξ * (1 + u) ^ (n + 1)) ^ (j + 1) - ξ ^ (j + 1) + 3 * (n * n * η)) :
    ‖f‖ ≤ (ξ * (1 + u) ^ (n + 1)) ^ (j + 1) + 3 * (n * n * η) ∧ ‖f‖ ≤ 3 ∧
    ∃ g : Sq n, IsM (applyScalarM (· / ·) n n Fm k w) g ∧ (∀ i l, g i l = G.rnd (f i l / (j + 1))) ∧
      ‖g‖ ≤ lφ u (ξ * (1 + u) ^ (n + 1)) (n * n * η) j ∧ ‖g‖ ≤ 3 ∧
      ‖g - lterm x j‖ ≤ ld u (ξ * (1 + u) ^ (n + 1)) ξ (n * n * η) j := by
  have u0 := H.F.u0
  have u1 := H.F.u1
  have he := H.F.eta0
  have hc := H.c
  have hc0 := H.c0
  have hxc := H.xic
  have hx0 := H.xi0
  have hε5 := H.eps_le
  have hnη := H.nη
  set c := ξ * (1 + u) ^ (n + 1) with hcd
  set ε : ℝ := n * n * η with hε
  have hε0 : 0 ≤ ε := by positivity
  have hκ : (1:ℝ) ≤ (j:ℝ) + 1 := by linarith [(Nat.cast_nonneg j : (0:ℝ) ≤ j)]
  have hκ0 : (0:ℝ) < (j:ℝ) + 1 := by linarith
  have hp : ‖((-1 : ℝ) ^ j) • x ^ (j + 1)‖ ≤ ξ ^ (j + 1) := by
    rw [norm_smul, norm_pow, norm_neg, norm_one, one_pow, one_mul]
    exact le_trans (norm_pow_le_of_one norm_one_le x _) (pow_le_pow_left₀ (norm_nonneg _) hx _)
  have hf : ‖f‖ ≤ c ^ (j + 1) + 3 * ε := by
    have := norm_add_le (f - ((-1 : ℝ) ^ j) • x ^ (j + 1)) (((-1 : ℝ) ^ j) • x ^ (j + 1))
    rw [sub_add_cancel] at this
    linarith
  have hcj : c ^ (j + 1) ≤ 1 := pow_le_one₀ hc0 (by linarith)
  have hcj0 : 0 ≤ c ^ (j + 1) := by positivity
  have hf3 : ‖f‖ ≤ 3 := by linarith
  obtain ⟨d1, d2⟩ := div_step H.F Fm w f h2 k (j+1) h3 hκ hf3 H.eta1 H.big
  have hε3 : (1 + u) * (3 * ε) / (j + 1) ≤ 3.75 * ε := by
    refine le_trans (div_le_self (by positivity) hκ) ?_
    nlinarith
  have q1 : (1 + u) * (‖f‖ / (j + 1)) ≤ (1 + u) * c ^ (j + 1) / (j + 1) + 3.75 * ε := by
    have := mul_le_mul_of_nonneg_left (div_le_div_of_nonneg_right hf hκ0.le) (show 0 ≤ 1 + u by linarith)
    have e : (1 + u) * ((c ^ (j + 1) + 3 * ε) / ((j:ℝ) + 1)) = (1 + u) * c ^ (j + 1) / (j + 1) + (1 + u) * (3 * ε) / (j + 1) := by ring
    linarith
  refine ⟨hf, hf3, _, d1, fun i l => rfl, ?_⟩
  have e1 : ‖(1 / ((j:ℝ) + 1)) • f‖ = ‖f‖ / (j + 1) := by
    rw [norm_smul, Real.norm_eq_abs, abs_of_nonneg (by positivity), one_div, inv_mul_eq_div]
  set g : Sq n := Matrix.of fun i l => G.rnd (f i l / (j + 1)) with hg
  have g1 : ‖g‖ ≤ lφ u c ε j := by
    have := norm_add_le (g - (1 / ((j:ℝ) + 1)) • f) ((1 / ((j:ℝ) + 1)) • f)
    rw [sub_add_cancel, e1] at this
    unfold lφ
    linarith
  refine ⟨g1, ?_, ?_⟩
  · refine le_trans g1 ?_
    unfold lφ
    have : (1 + u) * c ^ (j + 1) / (j + 1) ≤ 5 / 4 := by
      refine le_trans (div_le_self (by positivity) hκ) ?_
      nlinarith
    linarith
  · have e2 : g - lterm x j = (g - (1 / ((j:ℝ) + 1)) • f) + (1 / ((j:ℝ) + 1)) • (f - ((-1 : ℝ) ^ j) • x ^ (j + 1)) := by
      unfold lterm
      rw [smul_sub, smul_smul, one_div, inv_mul_eq_div]
      abel
    have e3 : ‖(1 / ((j:ℝ) + 1)) • (f - ((-1 : ℝ) ^ j) • x ^ (j + 1))‖ ≤ (c ^ (j + 1) - ξ ^ (j + 1) + 3 * ε) / (j + 1) := by
      rw [norm_smul, Real.norm_eq_abs, abs_of_nonneg (by positivity), one_div, inv_mul_eq_div]
      exact div_le_div_of_nonneg_right h4 hκ0.le
    rw [e2]
    refine le_trans (norm_add_le _ _) ?_
    unfold ld
    have q2 : u * (‖f‖ / (j + 1)) ≤ u * ((c ^ (j + 1) + 3 * ε) / (j + 1)) :=
      mul_le_mul_of_nonneg_left (div_le_div_of_nonneg_right hf hκ0.le) u0
    have q3 : u * ((c ^ (j + 1) + 3 * ε) / (j + 1)) + (c ^ (j + 1) - ξ ^ (j + 1) + 3 * ε) / (j + 1) =
        ((1 + u) * c ^ (j + 1) - ξ ^ (j + 1)) / (j + 1) + (1 + u) * (3 * ε) / (j + 1) := by
      ring
    linarith

set_option maxHeartbeats 1000000 in
theorem log_inv (H : LogHyp G u η ξ n N) (X w : Mat (XF G)) (x : Sq n) (hX : IsM X x) (hx : ‖x‖ ≤ ξ) (j : ℕ) (hj : j ≤ N) :
    LogInv u η ξ x (logSt n X w j) j := by
  have u0 := H.F.u0
  have u1 := H.F.u1
  have he := H.F.eta0
  have hc := H.c
  have hc0 := H.c0
  have hxc := H.xic
  have hx0 := H.xi0
  have hε5 := H.eps_le
  induction j with
  | zero =>
    refine ⟨0, x, ?_, hX, ?_, ?_, ?_, ?_⟩
    · intro i k
      unfold logSt zerosM
      dsimp only
      rw [evalM_apply, if_pos ⟨i.2, k.2⟩]
      exact is_zero
    · rw [Nat.cast_zero, zero_add]
      exact is_one
    · rw [pow_zero, one_smul, zero_add, pow_one, sub_self, norm_zero, pow_one, pow_one]
      have : (0:ℝ) ≤ n * n * η := by positivity
      linarith
    · simp
    · intro J
      simp [TooN.logPartial]
  | succ j ih =>
    obtain ⟨r, f, h1, h2, h3, h4, h5, h6⟩ := ih (by omega)
    obtain ⟨hf, hf3, g, g1, -, g3, g4, g5⟩ := log_term H hx (w := w) h2 h3 h4
    have hsum := H.sum_le (show j ≤ N by omega)
    set c := ξ * (1 + u) ^ (n + 1) with hcd
    set ε : ℝ := n * n * η with hε
    have hε0 : 0 ≤ ε := by positivity
    have hΦ0 : 0 ≤ ∑ i ∈ range j, lφ u c ε i := sum_nonneg fun i _ => lφ_nonneg u0 hc0 hε0 i
    have hPj := H.pow_le (show j ≤ N by omega)
    have hr : ‖r‖ ≤ 18 := by nlinarith
    obtain ⟨s, s1, s2, s3⟩ := add_step H.F H.big (w := (logSt n X w j).1) h1 g1 g4 hr
    have hP : (1 + u) ^ n ≤ 2 := H.pow_le (by have := H.nN; omega)
    have hP1 : (1 + u) ^ (n + 1) ≤ 2 := H.pow_le H.nN
    have hnη1 : n * η ≤ 1 := by
      have := H.nη
      linarith
    have hneg := neg_is (by linarith [H.big]) (logSt n X w j).2.1 w w f h2
    obtain ⟨b, b1, b2⟩ := mul_err H.F _ X w (-f) x hneg hX hP (by
      rw [norm_neg]
      have q1 : ‖f‖ * ‖x‖ ≤ 3 * (2 / 3) := mul_le_mul hf3 (by linarith) (norm_nonneg _) (by norm_num)
      have q2 : (1 + u) ^ (n + 1) * (‖f‖ * ‖x‖) ≤ 2 * (3 * (2 / 3)) := mul_le_mul hP1 q1 (by positivity) (by norm_num)
      linarith [H.big])
    rw [norm_neg] at b2
    have hφ0 := lφ_nonneg u0 hc0 hε0 j
    have hrg : ‖r + g‖ ≤ (1 + u) ^ j * ∑ i ∈ range j, lφ u c ε i + lφ u c ε j := le_trans (norm_add_le _ _) (add_le_add h5 g3)
    have hPj1 : (1:ℝ) ≤ (1 + u) ^ j := one_le_pow₀ (by linarith)
    refine ⟨s, b, s1, b1, ?_, ?_, ?_, ?_⟩
    · show Is ((logSt n X w j).2.2 + 1) _
      have hint : G.rnd (((j:ℝ) + 1) + 1) = ((j:ℝ) + 1) + 1 := by
        have := H.F.int (k := j + 2) (by
          have := H.Nu
          have h8 : ((j + 2 : ℕ):ℝ) ≤ N + 1 := by exact_mod_cast (by omega : j + 2 ≤ N + 1)
          nlinarith)
        push_cast at this
        rw [show ((j:ℝ) + 1) + 1 = j + 2 by ring]
        exact this
      have := h3.add is_one (by
        rw [hint, abs_of_nonneg (by positivity)]
        have h8 : ((j:ℝ) + 1) + 1 ≤ N + 1 := by exact_mod_cast (by omega : j + 1 + 1 ≤ N + 1)
        linarith [H.bigN])
      rw [hint] at this
      rw [Nat.cast_succ]
      exact this
    · have e : b - ((-1 : ℝ) ^ (j + 1)) • x ^ (j + 1 + 1) = (b - -f * x) + -(f - ((-1 : ℝ) ^ j) • x ^ (j + 1)) * x := by
        rw [pow_succ (-1 : ℝ) j, pow_succ x (j + 1), neg_mul, neg_mul, sub_mul, smul_mul_assoc, mul_neg_one, neg_smul]
        abel
      rw [e]
      refine le_trans (norm_add_le _ _) ?_
      have q1 : ‖-(f - ((-1 : ℝ) ^ j) • x ^ (j + 1)) * x‖ ≤ (c ^ (j + 1) - ξ ^ (j + 1) + 3 * ε) * ξ := by
        refine le_trans (norm_mul_le _ _) ?_
        rw [norm_neg]
        exact mul_le_mul h4 hx (norm_nonneg _) (le_trans (norm_nonneg _) h4)
      have q2 : ((1 + u) ^ (n + 1) - 1) * (‖f‖ * ‖x‖) ≤ ((1 + u) ^ (n + 1) - 1) * ((c ^ (j + 1) + 3 * ε) * ξ) := by
        have : (1:ℝ) ≤ (1 + u) ^ (n + 1) := one_le_pow₀ (by linarith)
        exact mul_le_mul_of_nonneg_left (mul_le_mul hf hx (norm_nonneg _) (by positivity)) (by linarith)
      have q3 : ((1 + u) ^ (n + 1) - 1) * ((c ^ (j + 1) + 3 * ε) * ξ) + ε + (c ^ (j + 1) - ξ ^ (j + 1) + 3 * ε) * ξ =
          c ^ (j + 1 + 1) - ξ ^ (j + 1 + 1) + 3 * (c * ε) + ε := by
        rw [pow_succ c (j+1), pow_succ ξ (j+1)]
        have : ((1 + u) ^ (n + 1) - 1) * ((c ^ (j + 1) + 3 * ε) * ξ) = (c ^ (j + 1) + 3 * ε) * (c - ξ) := by rw [hcd]; ring
        rw [this]
        ring
      have q4 : c * ε ≤ 2 / 3 * ε := mul_le_mul_of_nonneg_right hc hε0
      linarith
    · have q := norm_add_le (s - (r + g)) (r + g)
      rw [sub_add_cancel] at q
      refine le_trans q ?_
      rw [sum_range_succ, pow_succ]
      have : u * ‖r + g‖ ≤ u * ((1 + u) ^ j * ∑ i ∈ range j, lφ u c ε i + lφ u c ε j) := mul_le_mul_of_nonneg_left hrg u0
      have q2 : (1 + u) * lφ u c ε j ≤ (1 + u) ^ j * (1 + u) * lφ u c ε j := by
        refine mul_le_mul_of_nonneg_right ?_ hφ0
        nlinarith
      linarith
    · intro J
      have e : s - TooN.logPartial x (j+1) = (s - (r + g)) + (r - TooN.logPartial x j) + (g - lterm x j) := by
        unfold TooN.logPartial lterm
        rw [sum_range_succ]
        abel
      rw [e]
      refine le_trans (norm_add_le _ _) ?_
      refine le_trans (add_le_add_left (norm_add_le _ _) _) ?_
      rw [sum_range_succ, sum_range_succ, sum_range_succ]
      have h6 := h6 J
      by_cases hJ : J ≤ j
      · rw [if_pos hJ, min_eq_right (by omega : J ≤ j + 1)]
        rw [min_eq_right hJ] at h6
        have q : 0 ≤ ((1 + u) ^ J - 1) * lφ u c ε j :=
          mul_nonneg (sub_nonneg.2 (one_le_pow₀ (by linarith))) hφ0
        linarith
      · rw [if_neg hJ, min_eq_left (by omega : j + 1 ≤ J), pow_succ]
        rw [min_eq_left (by omega : j ≤ J)] at h6
        have : u * ‖r + g‖ ≤ u * ((1 + u) ^ j * ∑ i ∈ range j, lφ u c ε i + lφ u c ε j) := mul_le_mul_of_nonneg_left hrg u0
        have g2 : u * lφ u c ε j ≤ ((1 + u) ^ j * (1 + u) - 1) * lφ u c ε j := by
          refine mul_le_mul_of_nonneg_right ?_ hφ0
          nlinarith
        linarith

/-- the range of the sum -/
theorem log_range (H : LogHyp G u η ξ n N) {r : Sq n} {j : ℕ} (hj : j ≤ N)
    (h5 : ‖r‖ ≤ (1 + u) ^ j * ∑ i ∈ range j, lφ u (ξ * (1 + u) ^ (n + 1)) (n * n * η) i) : ‖r‖ ≤ 18 := by
  have h1 := H.sum_le hj
  have h2 := H.pow_le hj
  have he := H.F.eta0
  have h3 : 0 ≤ ∑ i ∈ range j, lφ u (ξ * (1 + u) ^ (n + 1)) (n * n * η) i :=
    sum_nonneg fun i _ => lφ_nonneg H.F.u0 H.c0 (by positivity) i
  nlinarith

/-- the loop ends: the powers of `X` become tiny, and the division by `k` makes them zero -/
theorem log_ends (H : LogHyp G u η ξ n N) (X w : Mat (XF G)) (x : Sq n) (hX : IsM X x) (hx : ‖x‖ ≤ ξ) (i : ℕ)
    (hi : (2 / 3 : ℝ) ^ i ≤ η) (hN : i + 4 * (3 * n ^ 2 + 1) ≤ N) : LStops n X w (i + 4 * (3 * n ^ 2 + 1)) := by
  have u0 := H.F.u0
  have u1 := H.F.u1
  have he := H.F.eta0
  set j := i + 4 * (3 * n ^ 2 + 1) with hj
  obtain ⟨r, f, h1, h2, h3, h4, h5, h6⟩ := log_inv H X w x hX hx j hN
  obtain ⟨hf, hf3, g, g1, g2, g3, g4, g5⟩ := log_term H hx (w := w) h2 h3 h4
  unfold LStops
  rw [unchanged_iff H.F H.big h1 g1 g4 (log_range H hN h5)]
  intro p q
  have hcj : (ξ * (1 + u) ^ (n + 1)) ^ (j + 1) ≤ η := by
    refine le_trans (pow_le_pow_left₀ H.c0 H.c _) (le_trans (pow_le_pow_of_le_one (by norm_num) (by norm_num) ?_) hi)
    omega
  have hκ : 4 * (3 * (n:ℝ) ^ 2 + 1) ≤ (j:ℝ) + 1 := by
    have : (j:ℝ) = i + 4 * (3 * n ^ 2 + 1) := by rw [hj]; push_cast; ring
    rw [this]
    have : (0:ℝ) ≤ i := Nat.cast_nonneg i
    linarith
  have hκ0 : (0:ℝ) < (j:ℝ) + 1 := by positivity
  have hz : g p q = 0 := by
    rw [g2]
    refine H.F.tiny (G.idem _) ?_
    have q1 := H.F.abs_rnd (f p q / (j + 1))
    have q2 : |f p q / ((j:ℝ) + 1)| ≤ η / 4 := by
      rw [abs_div, abs_of_pos hκ0, div_le_iff₀ hκ0]
      have := entry_le_norm f p q
      nlinarith
    nlinarith [abs_nonneg (f p q / ((j:ℝ) + 1))]
  rw [hz, add_zero]
  exact (h1 p q).rep

theorem pow_sub_pow_le_real {ξ c : ℝ} (h0 : 0 ≤ ξ) (h : ξ ≤ c) (i : ℕ) : c ^ (i + 1) - ξ ^ (i + 1) ≤ (i + 1) * ((c - ξ) * c ^ i) := by
  induction i with
  | zero => simp
  | succ i ih =>
    have h1 : ξ ^ (i + 1) ≤ c ^ (i + 1) := pow_le_pow_left₀ h0 h _
    have e : c ^ (i + 1 + 1) - ξ ^ (i + 1 + 1) = c * (c ^ (i + 1) - ξ ^ (i + 1)) + (c - ξ) * ξ ^ (i + 1) := by ring
    have h2 : c * (c ^ (i + 1) - ξ ^ (i + 1)) ≤ c * ((i + 1) * ((c - ξ) * c ^ i)) := mul_le_mul_of_nonneg_left ih (by linarith)
    have h3 : (c - ξ) * ξ ^ (i + 1) ≤ (c - ξ) * c ^ (i + 1) := mul_le_mul_of_nonneg_left h1 (by linarith)
    have e2 : c * (((i:ℝ) + 1) * ((c - ξ) * c ^ i)) = (i + 1) * ((c - ξ) * c ^ (i + 1)) := by ring
    push_cast
    linarith

theorem sum_ld_le (hu : 0 ≤ u) {c ξ ε : ℝ} (hx : 0 ≤ ξ) (hxc : ξ ≤ c) (h : c < 1) (j : ℕ) :
    ∑ i ∈ range j, ld u c ξ ε i ≤ u * (c * (1 - c)⁻¹) + (c - ξ) * (1 - c)⁻¹ + j * (5 * ε) := by
  have h0 : 0 ≤ c := le_trans hx hxc
  have h1 : ∀ i ∈ range j, ld u c ξ ε i ≤ u * (c ^ (i + 1) / ((i:ℝ) + 1)) + (c - ξ) * c ^ i + 5 * ε := by
    intro i _
    unfold ld
    have hi : (0:ℝ) < (i:ℝ) + 1 := by positivity
    have e : ((1 + u) * c ^ (i + 1) - ξ ^ (i + 1)) / ((i:ℝ) + 1) =
        u * (c ^ (i + 1) / ((i:ℝ) + 1)) + (c ^ (i + 1) - ξ ^ (i + 1)) / ((i:ℝ) + 1) := by ring
    have : (c ^ (i + 1) - ξ ^ (i + 1)) / ((i:ℝ) + 1) ≤ (c - ξ) * c ^ i := by
      rw [div_le_iff₀ hi, mul_comm]
      exact pow_sub_pow_le_real hx hxc i
    rw [e]
    linarith
  refine le_trans (sum_le_sum h1) ?_
  rw [sum_add_distrib, sum_add_distrib, sum_const, card_range, nsmul_eq_mul, ← mul_sum, ← mul_sum]
  have g1 := mul_le_mul_of_nonneg_left (sum_pow_div_le h0 h j) hu
  have g2 := mul_le_mul_of_nonneg_left (geom_le h0 h j) (sub_nonneg.2 hxc)
  linarith

/-- a tail of the logarithmic series -/
theorem log_tail_le (hu : 0 ≤ u) {c ε : ℝ} (h0 : 0 ≤ c) (h : c < 1) (hε : 0 ≤ ε) (J K : ℕ) :
    ∑ i ∈ range K, (if J ≤ i then lφ u c ε i else 0) ≤ (1 + u) * (c ^ (J + 1) * (1 - c)⁻¹ / (J + 1)) + K * (5 * ε) := by
  have h1 : ∀ K, ∑ i ∈ range K, (if J ≤ i then c ^ (i + 1) / ((i:ℝ) + 1) else 0) ≤ c ^ (J + 1) / (J + 1) * ∑ i ∈ range (K - J), c ^ i := by
    intro K
    induction K with
    | zero => simp
    | succ K ih =>
      rw [sum_range_succ]
      by_cases hJ : J ≤ K
      · rw [if_pos hJ, Nat.succ_sub hJ, sum_range_succ, mul_add]
        have e : c ^ (K + 1) = c ^ (J + 1) * c ^ (K - J) := by rw [← pow_add]; congr 1; omega
        have : c ^ (K + 1) / ((K:ℝ) + 1) ≤ c ^ (J + 1) / (J + 1) * c ^ (K - J) := by
          rw [e, div_mul_eq_mul_div]
          have : (J:ℝ) ≤ K := by exact_mod_cast hJ
          gcongr
        linarith
      · rw [if_neg hJ, add_zero, show K + 1 - J = K - J by omega]
        exact ih
  have h2 : ∑ i ∈ range K, (if J ≤ i then lφ u c ε i else 0) ≤
      ∑ i ∈ range K, ((1 + u) * (if J ≤ i then c ^ (i + 1) / ((i:ℝ) + 1) else 0) + 5 * ε) := by
    refine sum_le_sum fun i _ => ?_
    unfold lφ
    split
    · rw [mul_div_assoc]
    · rw [mul_zero, zero_add]
      positivity
  refine le_trans h2 ?_
  rw [sum_add_distrib, sum_const, card_range, nsmul_eq_mul, ← mul_sum]
  have h3 := mul_le_mul_of_nonneg_left (geom_le h0 h (K - J)) (show 0 ≤ c ^ (J + 1) / ((J:ℝ) + 1) by positivity)
  have h4 := mul_le_mul_of_nonneg_left (le_trans (h1 K) h3) (show 0 ≤ 1 + u by linarith)
  have e : (1 + u) * (c ^ (J + 1) * (1 - c)⁻¹ / ((J:ℝ) + 1)) = (1 + u) * (c ^ (J + 1) / (J + 1) * (1 - c)⁻¹) := by ring
  rw [e]
  linarith

/-- bound on the distance of the result of `log_taylor` from the logarithm of `1 + X` for `‖X‖ ≤ ξ`: the rounding errors of the first `J`
iterations and of the terms, the part of the series after its first `J` terms, and the effect of underflow in the `K` iterations -/
noncomputable def logBound (u η ξ : ℝ) (n J K : ℕ) : ℝ :=
  let c := ξ * (1 + u) ^ (n + 1)
  let σ := (1 - c)⁻¹
  u * c * (3 * J * σ + 5 * σ ^ 2) + (c - ξ) * σ ^ 2 + 2 * c ^ (J + 1) * σ / (J + 1) + 40 * (K + 1) * (n * n * η)

set_option maxHeartbeats 1000000 in
theorem log_stop_error (H : LogHyp G u η ξ n N) (X w : Mat (XF G)) (x : Sq n) (hX : IsM X x) (hx : ‖x‖ ≤ ξ) (K : ℕ) (hK : K ≤ N)
    (hs : LStops n X w K) (L : Sq n)
    (hL : ∀ k : ℕ, ‖L - TooN.logPartial x k‖ ≤ ‖((-1 : ℝ) ^ k / (k + 1)) • x ^ (k + 1)‖ * (1 - ‖x‖)⁻¹) :
    ∃ R : Sq n, IsM (logSt n X w K).1 R ∧ ∀ J, ‖R - L‖ ≤ logBound u η ξ n J K := by
  have u0 := H.F.u0
  have u1 := H.F.u1
  have he := H.F.eta0
  obtain ⟨r, f, h1, h2, h3, h4, h5, h6⟩ := log_inv H X w x hX hx K hK
  obtain ⟨hf, hf3, g, g1, g2, g3, g4, g5⟩ := log_term H hx (w := w) h2 h3 h4
  refine ⟨r, h1, fun J => ?_⟩
  unfold LStops at hs
  rw [unchanged_iff H.F H.big h1 g1 g4 (log_range H hK h5)] at hs
  unfold logBound
  dsimp only
  have h6 := h6 J
  have hc := H.c
  have hc0 := H.c0
  have hxc := H.xic
  have hx0 := H.xi0
  have hPK := H.pow_le hK
  have hε5 := H.eps_le
  have hPk : (1 + u) ^ min K J - 1 ≤ 2 * (J * u) ∧ (1 + u) ^ min K J - 1 ≤ 1 := by
    have h8 : ((min K J : ℕ):ℝ) ≤ N := by exact_mod_cast (le_trans (min_le_left K J) hK)
    have h9 : ((min K J : ℕ):ℝ) ≤ J := by exact_mod_cast (min_le_right K J)
    refine ⟨le_trans (pow_sub_one u0 (min K J) (by nlinarith [H.Nu])) (by nlinarith), ?_⟩
    have := H.pow_le (le_trans (min_le_left K J) hK)
    linarith
  set c := ξ * (1 + u) ^ (n + 1) with hcd
  set ε : ℝ := n * n * η with hε
  have hε0 : 0 ≤ ε := by positivity
  set σ := (1 - c)⁻¹ with hσ
  have hσ1 : 1 ≤ σ := by
    rw [hσ]
    exact (one_le_inv₀ (by linarith)).2 (by linarith)
  have hσ3 : σ ≤ 3 := by
    rw [hσ, inv_le_comm₀ (by linarith) (by norm_num)]
    linarith
  set Φ := ∑ i ∈ range K, lφ u c ε i with hΦ
  have hΦ0 : 0 ≤ Φ := sum_nonneg fun i _ => lφ_nonneg u0 hc0 hε0 i
  have hΦ1 : Φ ≤ (1 + u) * (c * σ) + K * (5 * ε) := sum_lφ_le u0 hc0 (by linarith) K
  have hge : ‖g‖ ≤ (4 / 3 * u) * ‖r‖ := by
    refine norm_le_of_entries g r (by positivity) fun i k => ?_
    have q := H.F.add (h1 i k).rep (g1 i k).rep
    rw [hs i k, show r i k - (r i k + g i k) = -g i k by ring, abs_neg] at q
    have q2 := abs_add_le (r i k) (g i k)
    have q3 := abs_nonneg (g i k)
    have q4 := abs_nonneg (r i k)
    nlinarith
  have hrΦ : ‖r‖ ≤ 2 * Φ := le_trans h5 (mul_le_mul_of_nonneg_right hPK hΦ0)
  have hT : ‖lterm x K‖ ≤ 8 / 3 * u * Φ + ld u c ξ ε K := by
    have q := norm_sub_le g (g - lterm x K)
    rw [sub_sub_cancel] at q
    have : (4 / 3 * u) * ‖r‖ ≤ (4 / 3 * u) * (2 * Φ) := mul_le_mul_of_nonneg_left hrΦ (by positivity)
    linarith
  have hinv : (1 - ‖x‖)⁻¹ ≤ σ := inv_anti₀ (by linarith) (by linarith)
  have htail : ‖L - TooN.logPartial x K‖ ≤ (8 / 3 * u * Φ + ld u c ξ ε K) * σ :=
    le_trans (hL K) (mul_le_mul hT hinv (inv_nonneg.2 (by linarith)) (le_trans (norm_nonneg _) hT))
  have e : r - L = (r - TooN.logPartial x K) - (L - TooN.logPartial x K) := by abel
  rw [e]
  refine le_trans (norm_sub_le _ _) ?_
  have hld := sum_ld_le u0 (ε := ε) hx0 hxc (by linarith : c < 1) (K + 1)
  rw [sum_range_succ] at hld
  rw [← hσ] at hld
  have hld0 : 0 ≤ ∑ i ∈ range K, ld u c ξ ε i := sum_nonneg fun i _ => by
    unfold ld
    have : ξ ^ (i + 1) ≤ c ^ (i + 1) := pow_le_pow_left₀ hx0 hxc _
    have q : 0 ≤ c ^ (i + 1) := by positivity
    have : 0 ≤ (1 + u) * c ^ (i + 1) - ξ ^ (i + 1) := by nlinarith
    positivity
  have htl := log_tail_le u0 hc0 (by linarith : c < 1) hε0 J K
  rw [← hσ] at htl
  have hK0 : (0:ℝ) ≤ K := Nat.cast_nonneg K
  have hJ0 : (0:ℝ) ≤ J := Nat.cast_nonneg J
  have hcσ : 0 ≤ c * σ := by positivity
  have hKε : 0 ≤ (K:ℝ) * ε := by positivity
  -- the rounding errors of the additions
  have p1 : ((1 + u) ^ min K J - 1) * Φ ≤ u * c * (3 * J * σ) + 5 * (K * ε) := by
    have hp0 : 0 ≤ (1 + u) ^ min K J - 1 := sub_nonneg.2 (one_le_pow₀ (by linarith))
    have q1 : ((1 + u) ^ min K J - 1) * Φ ≤ ((1 + u) ^ min K J - 1) * ((1 + u) * (c * σ) + K * (5 * ε)) :=
      mul_le_mul_of_nonneg_left hΦ1 hp0
    have q2 : ((1 + u) ^ min K J - 1) * ((1 + u) * (c * σ)) ≤ 2 * (J * u) * (5 / 4 * (c * σ)) :=
      mul_le_mul hPk.1 (by nlinarith) (by positivity) (by positivity)
    have q3 : ((1 + u) ^ min K J - 1) * (K * (5 * ε)) ≤ 1 * (K * (5 * ε)) := mul_le_mul_of_nonneg_right hPk.2 (by positivity)
    have q4 : 0 ≤ J * u * (c * σ) := by positivity
    nlinarith
  have p2 : (1 + u) * (c ^ (J + 1) * σ / (J + 1)) ≤ 2 * c ^ (J + 1) * σ / (J + 1) := by
    have : 2 * c ^ (J + 1) * σ / ((J:ℝ) + 1) = 2 * (c ^ (J + 1) * σ / (J + 1)) := by ring
    rw [this]
    exact mul_le_mul_of_nonneg_right (by linarith) (by positivity)
  have p3 : ∑ i ∈ range K, ld u c ξ ε i + ld u c ξ ε K * σ ≤ (u * (c * σ) + (c - ξ) * σ + (K + 1) * (5 * ε)) * σ := by
    have q1 : ∑ i ∈ range K, ld u c ξ ε i ≤ (∑ i ∈ range K, ld u c ξ ε i) * σ := le_mul_of_one_le_right hld0 hσ1
    have q2 := mul_le_mul_of_nonneg_right hld (show 0 ≤ σ by linarith)
    rw [add_mul] at q2
    push_cast at q2
    linarith
  have p4 : 8 / 3 * u * Φ * σ ≤ 10 / 3 * (u * (c * σ) * σ) + 10 * (K * ε) := by
    have q0 : (1 + u) * (c * σ) ≤ 5 / 4 * (c * σ) := mul_le_mul_of_nonneg_right (by linarith) hcσ
    have q1 : u * σ * Φ ≤ u * σ * (5 / 4 * (c * σ) + K * (5 * ε)) := mul_le_mul_of_nonneg_left (by linarith) (by positivity)
    have q2 : u * σ * (K * (5 * ε)) ≤ 1 / 4 * 3 * (K * (5 * ε)) :=
      mul_le_mul_of_nonneg_right (mul_le_mul u1 hσ3 (by linarith) (by norm_num)) (by positivity)
    nlinarith
  have p5 : (K + 1) * (5 * ε) * σ ≤ (K + 1) * (5 * ε) * 3 := mul_le_mul_of_nonneg_left hσ3 (by positivity)
  have p6 : 0 ≤ u * (c * σ) * σ := by positivity
  have e1 : (u * (c * σ) + (c - ξ) * σ + ((K:ℝ) + 1) * (5 * ε)) * σ = u * (c * σ) * σ + (c - ξ) * σ ^ 2 + (K + 1) * (5 * ε) * σ := by ring
  have e2 : u * c * (3 * J * σ + 5 * σ ^ 2) = u * c * (3 * J * σ) + 5 * (u * (c * σ) * σ) := by ring
  rw [e2]
  rw [e1] at p3
  linarith

/-- the logarithm is Lipschitz near the identity -/
theorem log_perturb (x y : Sq n) {c : ℝ} (hx : ‖x‖ ≤ c) (hy : ‖y‖ ≤ c) (hc : c < 1) (Lx Ly : Sq n)
    (hLx : ∀ k : ℕ, ‖Lx - TooN.logPartial x k‖ ≤ ‖((-1 : ℝ) ^ k / (k + 1)) • x ^ (k + 1)‖ * (1 - ‖x‖)⁻¹)
    (hLy : ∀ k : ℕ, ‖Ly - TooN.logPartial y k‖ ≤ ‖((-1 : ℝ) ^ k / (k + 1)) • y ^ (k + 1)‖ * (1 - ‖y‖)⁻¹) :
    ‖Lx - Ly‖ ≤ (1 - c)⁻¹ * ‖x - y‖ := by
  have hc0 : 0 ≤ c := le_trans (norm_nonneg _) hx
  have hpart : ∀ k, ‖TooN.logPartial x k - TooN.logPartial y k‖ ≤ (1 - c)⁻¹ * ‖x - y‖ := by
    intro k
    unfold TooN.logPartial
    rw [← sum_sub_distrib]
    refine le_trans (norm_sum_le _ _) ?_
    have : ∀ i ∈ range k, ‖((-1 : ℝ) ^ i / (i + 1)) • x ^ (i + 1) - ((-1 : ℝ) ^ i / (i + 1)) • y ^ (i + 1)‖ ≤ c ^ i * ‖x - y‖ := by
      intro i _
      have hi : (0:ℝ) < (i:ℝ) + 1 := by positivity
      rw [← smul_sub, norm_smul, norm_div, norm_pow, norm_neg, norm_one, one_pow, Real.norm_eq_abs, abs_of_pos hi, one_div, inv_mul_eq_div,
        div_le_iff₀ hi]
      have := TooN.norm_pow_sub_pow_le norm_one_le x y c hx hy i
      linarith
    refine le_trans (sum_le_sum this) ?_
    rw [← sum_mul]
    exact mul_le_mul_of_nonneg_right (geom_le hc0 hc k) (norm_nonneg _)
  have hrem : ∀ (z L : Sq n), ‖z‖ ≤ c →
      (∀ k : ℕ, ‖L - TooN.logPartial z k‖ ≤ ‖((-1 : ℝ) ^ k / (k + 1)) • z ^ (k + 1)‖ * (1 - ‖z‖)⁻¹) →
      ∀ k, ‖L - TooN.logPartial z k‖ ≤ c ^ (k + 1) * (1 - c)⁻¹ := by
    intro z L hz h k
    refine le_trans (h k) ?_
    have hk : (1:ℝ) ≤ (k:ℝ) + 1 := by linarith [(Nat.cast_nonneg k : (0:ℝ) ≤ k)]
    have h1 : ‖((-1 : ℝ) ^ k / (k + 1)) • z ^ (k + 1)‖ ≤ c ^ (k + 1) := by
      rw [norm_smul, norm_div, norm_pow, norm_neg, norm_one, one_pow, Real.norm_eq_abs, abs_of_pos (by linarith), one_div, inv_mul_eq_div]
      refine le_trans (div_le_self (norm_nonneg _) hk) ?_
      exact le_trans (TooN.norm_pow_le_of_one norm_one_le z _) (pow_le_pow_left₀ (norm_nonneg _) hz _)
    exact mul_le_mul h1 (inv_anti₀ (by linarith) (by linarith)) (inv_nonneg.2 (by linarith)) (by positivity)
  have hlim : Filter.Tendsto (fun k : ℕ => (1 - c)⁻¹ * ‖x - y‖ + 2 * (c ^ (k + 1) * (1 - c)⁻¹)) Filter.atTop
      (nhds ((1 - c)⁻¹ * ‖x - y‖ + 2 * (0 * (1 - c)⁻¹))) := by
    refine Filter.Tendsto.const_add _ (Filter.Tendsto.const_mul _ (Filter.Tendsto.mul_const _ ?_))
    exact (tendsto_pow_atTop_nhds_zero_of_lt_one hc0 hc).comp (Filter.tendsto_add_atTop_nat 1)
  rw [zero_mul, mul_zero, add_zero] at hlim
  refine ge_of_tendsto' hlim fun k => ?_
  have e : Lx - Ly = (Lx - TooN.logPartial x k) + (TooN.logPartial x k - TooN.logPartial y k) - (Ly - TooN.logPartial y k) := by abel
  have h1 := norm_sub_le ((Lx - TooN.logPartial x k) + (TooN.logPartial x k - TooN.logPartial y k)) (Ly - TooN.logPartial y k)
  have h2 := norm_add_le (Lx - TooN.logPartial x k) (TooN.logPartial x k - TooN.logPartial y k)
  rw [← e] at h1
  have h3 := hrem x Lx hx hLx k
  have h4 := hrem y Ly hy hLy k
  have h5 := hpart k
  linarith

/-- `log_taylor` ends, and what it returns is close to the logarithm -/
theorem logTaylor_total (H : LogHyp G u η ((1 + u) * ξ) n N) (m w : Mat (XF G)) (a : Sq n) (hm : IsM m a) (ha : ‖a - 1‖ ≤ ξ) (i : ℕ)
    (hi : (2 / 3 : ℝ) ^ i ≤ η) (hN : i + 4 * (3 * n ^ 2 + 1) ≤ N) (fuel : ℕ) (hf : i + 4 * (3 * n ^ 2 + 1) < fuel) :
    ∃ L, NormedSpace.exp L = a ∧
      (∀ k : ℕ, ‖L - TooN.logPartial (a - 1) k‖ ≤ ‖((-1 : ℝ) ^ k / (k + 1)) • (a - 1) ^ (k + 1)‖ * (1 - ‖a - 1‖)⁻¹) ∧
      ∃ K M R, K ≤ i + 4 * (3 * n ^ 2 + 1) ∧ logTaylor XF.abs n m w fuel = some M ∧ IsM (n := n) M R ∧
        ∀ J, ‖R - L‖ ≤ logBound u η ((1 + u) * ξ) n J K + 3 * u * ξ := by
  have u0 := H.F.u0
  have hxc := H.xic
  have hc := H.c
  have hx0 : 0 ≤ ξ := le_trans (norm_nonneg _) ha
  have hξ : ξ ≤ (1 + u) * ξ := by nlinarith
  obtain ⟨x, x1, x2⟩ := minusId_is H.F m w a hm (by linarith) H.big
  have hx : ‖x‖ ≤ (1 + u) * ξ := by
    have := norm_add_le (x - (a - 1)) (a - 1)
    rw [sub_add_cancel] at this
    nlinarith
  obtain ⟨L, l1, l2⟩ := TooN.log_series norm_one_le (a - 1) (by linarith)
  obtain ⟨L', -, l4⟩ := TooN.log_series norm_one_le x (by linarith)
  refine ⟨L, l1.trans (by abel), l2, ?_⟩
  obtain ⟨K, -, k1, k2, k3⟩ := logLoop_stops (minusId n m w) w _ (log_ends H _ w x x1 hx i hi hN) fuel 0 (by omega) (by omega)
  obtain ⟨R, r1, r2⟩ := log_stop_error H _ w x x1 hx K (by omega) k2 L' l4
  refine ⟨K, _, R, k1, k3, r1, fun J => ?_⟩
  have hp := log_perturb x (a - 1) (c := (1 + u) * ξ) hx (by linarith) (by linarith) L' L l4 l2
  have h3 : (1 - (1 + u) * ξ)⁻¹ ≤ 3 := by
    rw [inv_le_comm₀ (by linarith) (by norm_num)]
    linarith
  have h4 : ‖x - (a - 1)‖ ≤ u * ξ := le_trans x2 (mul_le_mul_of_nonneg_left ha u0)
  have h5 : (1 - (1 + u) * ξ)⁻¹ * ‖x - (a - 1)‖ ≤ 3 * (u * ξ) := mul_le_mul h3 h4 (norm_nonneg _) (by norm_num)
  have e : R - L = (R - L') + (L' - L) := by abel
  have := norm_add_le (R - L') (L' - L)
  rw [← e] at this
  linarith [r2 J]

end TooN.Special
