import Verif.Proof.QRF
import Verif.Proof.Bridge
/-!
# C81: QR in floating point

`QR.h` reflects the column onto `+sign(x₀)|x|`, so the first entry of the Householder vector is the difference of two numbers of the
same sign.  When the column is not already almost reduced this is harmless (backward stable), otherwise everything is lost.
-/
set_option linter.unusedSectionVars false
namespace TooN.QRF
open Finset

section gen
variable {K : Type _}
theorem transposeLoop_apply (sq : Nat) (Q : Mat K) (r c : Nat) :
    transposeLoop sq Q r c = if r < sq ∧ c < sq then Q c r else Q r c := by
  unfold transposeLoop
  have row : ∀ (r : Nat), r < sq → ∀ (B : Mat K) (i j : Nat),
      forRange (r+1) sq (fun c Q => Mat.set (Mat.set Q r c (Q c r)) c r (Q r c)) B i j =
        if (i = r ∧ r < j ∧ j < sq) ∨ (j = r ∧ r < i ∧ i < sq) then B j i else B i j := by
    intro r hr B i j
    refine forRange_inv (fun k (D : Mat K) => ∀ i j, D i j =
      if (i = r ∧ r < j ∧ j < k) ∨ (j = r ∧ r < i ∧ i < k) then B j i else B i j) (r+1) sq (by omega) _ B ?_ ?_ i j
    · intro i j; rw [if_neg (by omega)]
    · intro k D h1 h2 ih i j
      by_cases e1 : i = k ∧ j = r
      · obtain ⟨rfl, rfl⟩ := e1
        rw [Mat.set_self, if_pos (by omega), ih, if_neg (by omega)]
      · rw [Mat.set_ne _ _ _ _ _ _ e1]
        by_cases e2 : i = r ∧ j = k
        · obtain ⟨rfl, rfl⟩ := e2
          rw [Mat.set_self, if_pos (by omega), ih, if_neg (by omega)]
        · rw [Mat.set_ne _ _ _ _ _ _ e2, ih]
          by_cases e3 : (i = r ∧ r < j ∧ j < k) ∨ (j = r ∧ r < i ∧ i < k)
          · rw [if_pos e3, if_pos (by omega)]
          · rw [if_neg e3, if_neg (by omega)]
  have := forN_inv (fun k (D : Mat K) => ∀ i j, D i j =
      if (i < k ∨ j < k) ∧ i < sq ∧ j < sq then Q j i else Q i j) sq
      (fun r Q => forRange (r+1) sq (fun c Q => Mat.set (Mat.set Q r c (Q c r)) c r (Q r c)) Q) Q
      (fun i j => by rw [if_neg (by omega)]) (by
        intro k D hk ih i j
        rw [row k hk]
        by_cases h : (i = k ∧ k < j ∧ j < sq) ∨ (j = k ∧ k < i ∧ i < sq)
        · rw [if_pos h, ih, if_neg (by omega), if_pos (by omega)]
        · rw [if_neg h, ih]
          by_cases h2 : (i < k ∨ j < k) ∧ i < sq ∧ j < sq
          · rw [if_pos h2, if_pos (by omega)]
          · rw [if_neg h2]
            by_cases h3 : (i < k + 1 ∨ j < k + 1) ∧ i < sq ∧ j < sq
            · have : i = k ∧ j = k := by omega
              rw [if_pos h3, this.1, this.2]
            · rw [if_neg h3])
  refine (this r c).trans ?_
  by_cases h : r < sq ∧ c < sq
  · rw [if_pos h, if_pos (by omega)]
  · rw [if_neg h, if_neg (by omega)]
end gen

section same
open scoped Classical

theorem step_real (C R n : Nat) (st : St ℝ) :
    (step Real.sqrt C R n st).map (fun t => (⟨t.m, t.Q⟩ : QR.St)) = QR.step C R n ⟨st.m, st.Q⟩ := by
  have e : heightOf Real.sqrt R n st.m = -(Real.sqrt (Ops.dot (R - n) (fun i => st.m (n + i) n) (fun i => st.m (n + i) n)) *
      (if st.m n n < 0 then -1 else 1)) * (Mat.set st.m n n (st.m n n - Real.sqrt (Ops.dot (R - n) (fun i => st.m (n + i) n)
        (fun i => st.m (n + i) n)) * (if st.m n n < 0 then -1 else 1))) n n := by
    unfold heightOf reflect pivot
    congr!
  unfold step QR.step
  dsimp only
  by_cases h : heightOf Real.sqrt R n st.m = 0
  · rw [if_pos h]
    rw [e] at h
    refine Eq.symm ((if_pos ?_).trans rfl)
    convert h
  · rw [if_neg h]
    rw [e] at h
    refine Eq.symm ((if_neg ?_).trans ?_)
    · convert h
    · unfold stepRun heightOf reflect pivot
      simp only [Option.map_some]
      congr!

/-- **C81** over the real numbers, with the exact square root, this is the code of C27. -/
theorem c81_same_code (R C : Nat) (A : Mat ℝ) :
    (compute Real.sqrt R C A).map (fun t => (⟨t.m, t.Q⟩ : QR.St)) = QR.compute R C A := by
  have key : ∀ k, (forNM k (step Real.sqrt C (min R C)) (start A)).map (fun t => (⟨t.m, t.Q⟩ : QR.St)) =
      forNM k (QR.step C (min R C)) ⟨A, fun r c => if r = c then 1 else 0⟩ := by
    intro k
    induction k with
    | zero => rfl
    | succ k ih =>
      rw [forNM_succ, forNM_succ, ← ih]
      cases forNM k (step Real.sqrt C (min R C)) (start A) with
      | none => rfl
      | some t => exact step_real C (min R C) k t
  unfold compute QR.compute
  dsimp only
  rw [← key]
  cases forNM (min R C - 1) (step Real.sqrt C (min R C)) (start A) with
  | none => rfl
  | some t => rfl

end same

section fl
variable {ρ : Rounding}

/-- composition of two perturbed orthogonal maps -/
theorem comp_err {R : Nat} {P O : Matrix (Fin R) (Fin R) ℝ} {a m m' : Fin R → ℝ} {ε δ : ℝ} (hε : 0 ≤ ε)
    (hP : P.transpose * P = 1) (hO : O.transpose * O = 1)
    (h1 : nf (m' - P.mulVec m) ≤ ε * nf m) (h2 : nf (m - O.mulVec a) ≤ δ * nf a) :
    nf (m' - (P * O).mulVec a) ≤ ((1 + ε) * (1 + δ) - 1) * nf a := by
  have e : m' - (P * O).mulVec a = (m' - P.mulVec m) + P.mulVec (m - O.mulVec a) := by
    rw [Matrix.mulVec_sub, Matrix.mulVec_mulVec]; abel
  have e2 : m = (m - O.mulVec a) + O.mulVec a := by abel
  have h3 : nf m ≤ δ * nf a + nf a := by
    conv_lhs => rw [e2]
    refine (nf_add _ _).trans ?_
    rw [nf_orth O hO]
    linarith
  rw [e]
  refine (nf_add _ _).trans ?_
  rw [nf_orth P hP]
  have := mul_le_mul_of_nonneg_left h3 hε
  nlinarith

/-- the loop invariant: an exact orthogonal matrix that maps the input to within `δ` of the current state -/
structure FInv (R C : Nat) (A : Mat (Fl ρ)) (ε : ℝ) (n : Nat) (s : St (Fl ρ)) : Prop where
  ex : ∃ O : Matrix (Fin R) (Fin R) ℝ, O.transpose * O = 1 ∧
    (∀ c < C, nf (colOf R (rmat s.m) c - O.mulVec (colOf R (rmat A) c)) ≤ ((1 + ε) ^ n - 1) * nf (colOf R (rmat A) c)) ∧
    (∀ c : Fin R, nf (colOf R (rmat s.Q) c - O.mulVec (Pi.single c 1)) ≤ (1 + ε) ^ n - 1)
  zero : ∀ r c, c < n → c < r → r < R → (s.m r c).val = 0

theorem nf_single {R : Nat} (c : Fin R) : nf (Pi.single c (1:ℝ)) = 1 := by
  unfold nf
  simp [Pi.single_apply]

/-- **C81** If, at every reflection, the column being reduced is not already almost reduced (`Cond κ`: its length exceeds the
diagonal entry by a factor `κ/(κ-1)`), the computed `R` is exactly upper triangular and there is an exactly orthogonal `U` such that
every column of `R` is within `δ` (relatively) of that of `Uᵀ A` and every row of the computed `Q` is within `δ` of that of `U`,
where `δ = (1 + 11κγ)^(R-1) - 1`, `γ = gam u (R+3)`. -/
theorem c81_backward_partial (R C : Nat) (hRC : R ≤ C) (A : Mat (Fl ρ)) (s : St (Fl ρ)) (κ : ℝ) (hκ : 1 ≤ κ)
    (hN : ((R + 3 : ℕ) : ℝ) * ρ.u < 1) (ht : κ * gam ρ.u (R + 3) ≤ 1 / 200)
    (hc : ∀ n < R - 1, ∀ st, forNM n (step Fl.sqrt C R) (start A) = some st → Cond κ R n (rmat st.m))
    (h : compute Fl.sqrt R C A = some s) :
    (∀ i j, j < i → i < R → (s.m i j).val = 0) ∧
    ∃ U : Matrix (Fin R) (Fin R) ℝ, U.transpose * U = 1 ∧ U * U.transpose = 1 ∧
      (∀ c < C, nf (colOf R (rmat s.m) c - U.transpose.mulVec (colOf R (rmat A) c)) ≤
        ((1 + 11 * (κ * gam ρ.u (R + 3))) ^ (R - 1) - 1) * nf (colOf R (rmat A) c)) ∧
      (∀ i : Fin R, nf (fun j => (s.Q i j).val - U i j) ≤ (1 + 11 * (κ * gam ρ.u (R + 3))) ^ (R - 1) - 1) := by
  set ε := 11 * (κ * gam ρ.u (R + 3)) with hε
  have hg0 : 0 ≤ gam ρ.u (R + 3) := gam_nonneg ρ.u_nonneg ρ.u_lt_one hN
  have hε0 : 0 ≤ ε := by rw [hε]; positivity
  have key : ∀ n ≤ R - 1, ∀ st, forNM n (step Fl.sqrt C R) (start A) = some st → FInv R C A ε n st := by
    intro n
    induction n with
    | zero =>
      intro _ st hst
      rw [forNM_zero] at hst
      obtain rfl := Option.some.inj hst
      refine ⟨⟨1, by simp, fun c hc => ?_, fun c => ?_⟩, fun r c hc => by omega⟩
      · rw [Matrix.one_mulVec]
        have : colOf R (rmat (start A).m) c - colOf R (rmat A) c = 0 := sub_self _
        rw [this]; simp [nf]
      · rw [Matrix.one_mulVec]
        have : colOf R (rmat (start A).Q) c - Pi.single c 1 = 0 := by
          funext i
          show ((if (i : Nat) = c then (1 : Fl ρ) else 0).val) - (Pi.single c (1:ℝ) : Fin R → ℝ) i = 0
          rw [Pi.single_apply]
          by_cases hi : i = c
          · rw [if_pos hi, if_pos (by rw [hi])]; simp
          · rw [if_neg hi, if_neg (fun h => hi (Fin.ext h))]; simp
        rw [this]; simp [nf]
    | succ n ih =>
      intro hn st hst
      rw [forNM_succ] at hst
      cases hp : forNM n (step Fl.sqrt C R) (start A) with
      | none => rw [hp] at hst; exact absurd hst (by simp)
      | some t =>
        rw [hp, Option.bind_some] at hst
        obtain ⟨⟨O, hO, hm, hQ⟩, hz⟩ := ih (by omega) t hp
        unfold step at hst
        by_cases hH : heightOf Fl.sqrt R n t.m = 0
        · rw [if_pos hH] at hst; exact absurd hst (by simp)
        rw [if_neg hH] at hst
        obtain rfl := Option.some.inj hst
        obtain ⟨P, hP, hm', hQ', hz'⟩ := step_err R C n (by omega) t κ hκ hN ht hH (hc n (by omega) t hp) hz
        refine ⟨⟨P * O, ?_, fun c hcC => ?_, fun c => ?_⟩, fun r c h1 h2 h3 => hz' r c h1 h2 h3 (by omega)⟩
        · rw [Matrix.transpose_mul, Matrix.mul_assoc, ← Matrix.mul_assoc P.transpose, hP, Matrix.one_mul, hO]
        · have := comp_err hε0 hP hO (hm' c hcC) (hm c hcC)
          refine this.trans (le_of_eq ?_)
          congr 1
          rw [pow_succ]; ring
        · have := comp_err (a := Pi.single c 1) (δ := (1 + ε) ^ n - 1) hε0 hP hO (hQ' c c.2) (by rw [nf_single, mul_one]; exact hQ c)
          refine this.trans (le_of_eq ?_)
          rw [nf_single, pow_succ]; ring
  unfold compute at h
  rw [Nat.min_eq_left hRC] at h
  dsimp only at h
  cases hq : forNM (R - 1) (step Fl.sqrt C R) (start A) with
  | none => rw [hq] at h; exact absurd h (by simp)
  | some t =>
    rw [hq, Option.bind_some] at h
    obtain rfl := Option.some.inj h
    obtain ⟨⟨O, hO, hm, hQ⟩, hz⟩ := key (R - 1) le_rfl t hq
    refine ⟨fun i j h1 h2 => hz i j (by omega) h1 h2, O.transpose, ?_, ?_, fun c hcC => ?_, fun i => ?_⟩
    · rw [Matrix.transpose_transpose]; exact mul_eq_one_comm.1 hO
    · rw [Matrix.transpose_transpose]; exact hO
    · rw [Matrix.transpose_transpose]; exact hm c hcC
    · refine le_trans (le_of_eq ?_) (hQ i)
      congr 1
      funext j
      show (transposeLoop R t.Q i j).val - O.transpose i j = (t.Q j i).val - O.mulVec (Pi.single i 1) j
      rw [transposeLoop_apply, if_pos ⟨i.2, j.2⟩, Matrix.mulVec_single_one]
      rfl


/-- a column that is neither zero nor almost reduced is reflected without a division by zero -/
theorem height_ne (R n : Nat) (hn : n < R - 1) (m : Mat (Fl ρ)) (κ : ℝ) (hκ : 1 ≤ κ)
    (hN : ((R + 3 : ℕ) : ℝ) * ρ.u < 1) (ht : κ * gam ρ.u (R + 3) ≤ 1 / 200) (hc : Cond κ R n (rmat m))
    (hz : ∃ i, n ≤ i ∧ i < R ∧ (m i n).val ≠ 0) : heightOf Fl.sqrt R n m ≠ 0 := by
  have h0 := ρ.u_nonneg
  have h1 := ρ.u_lt_one
  obtain ⟨f, hf, e⟩ := pivot_val R n m
  have hS : 0 < Real.sqrt (∑ i ∈ range (R - n), (m (n + i) n).val ^ 2) := by
    refine Real.sqrt_pos.2 (sum_pos' (fun i _ => sq_nonneg _) ?_)
    obtain ⟨i, hi, hiR, hne⟩ := hz
    refine ⟨i - n, mem_range.2 (by omega), ?_⟩
    rw [show n + (i - n) = i by omega]
    positivity
  have hc' : Real.sqrt (∑ i ∈ range (R - n), (m (n + i) n).val ^ 2) ≤
      κ * (Real.sqrt (∑ i ∈ range (R - n), (m (n + i) n).val ^ 2) - |(m n n).val|) := hc
  have hg := abs_le.1 (fac_gam_abs h0 h1 hf (by omega : R - n + 1 ≤ R + 3) hN)
  have hfp := hf.pos h0 h1
  set S := Real.sqrt (∑ i ∈ range (R - n), (m (n + i) n).val ^ 2) with hSd
  have hgap : |(m n n).val| < S * f := by
    have h2 : κ * |(m n n).val| < κ * (S * f) := by
      have a1 : κ * (1 - gam ρ.u (R + 3)) ≤ κ * f := mul_le_mul_of_nonneg_left (by linarith [hg.1]) (by linarith)
      have a2 : S * (κ * (1 - gam ρ.u (R + 3))) ≤ S * (κ * f) := mul_le_mul_of_nonneg_left a1 hS.le
      have a3 : S * (κ * gam ρ.u (R + 3)) ≤ S * (1 / 200) := mul_le_mul_of_nonneg_left ht hS.le
      nlinarith
    exact lt_of_mul_lt_mul_left h2 (by linarith)
  have hpiv : (pivot Fl.sqrt R n m).val ≠ 0 ∧ (m n n).val - (pivot Fl.sqrt R n m).val ≠ 0 := by
    have hSf : 0 < S * f := mul_pos hS hfp
    have hab := abs_lt.1 hgap
    rw [e]
    by_cases hneg : (m n n).val < 0
    · rw [if_pos hneg]
      constructor
      · intro h; linarith
      · intro h; linarith [hab.1]
    · rw [if_neg hneg]
      constructor
      · intro h; linarith
      · intro h; linarith [hab.2]
  intro hH
  have hH := (Fl.eq_zero_iff _).1 hH
  unfold heightOf reflect at hH
  rw [Mat.set_self, Fl.val_mul] at hH
  refine rnd_ne_zero ρ (mul_ne_zero ?_ ?_) hH
  · rw [Fl.val_neg]; exact neg_ne_zero.2 hpiv.1
  · rw [Fl.val_sub]; exact rnd_ne_zero ρ hpiv.2

/-- **C81** under the same condition, if moreover no column to be reduced is zero, the code divides by no zero: `compute()` ends normally -/
theorem c81_succeeds_partial (R C : Nat) (hRC : R ≤ C) (A : Mat (Fl ρ)) (κ : ℝ) (hκ : 1 ≤ κ)
    (hN : ((R + 3 : ℕ) : ℝ) * ρ.u < 1) (ht : κ * gam ρ.u (R + 3) ≤ 1 / 200)
    (hc : ∀ n < R - 1, ∀ st, forNM n (step Fl.sqrt C R) (start A) = some st →
      Cond κ R n (rmat st.m) ∧ ∃ i, n ≤ i ∧ i < R ∧ (st.m i n).val ≠ 0) :
    ∃ s, compute Fl.sqrt R C A = some s := by
  have key : ∀ n ≤ R - 1, ∃ st, forNM n (step Fl.sqrt C R) (start A) = some st := by
    intro n
    induction n with
    | zero => intro _; exact ⟨_, rfl⟩
    | succ n ih =>
      intro hn
      obtain ⟨t, ht'⟩ := ih (by omega)
      rw [forNM_succ, ht', Option.bind_some]
      obtain ⟨c1, c2⟩ := hc n (by omega) t ht'
      exact ⟨_, if_neg (height_ne R n (by omega) t.m κ hκ hN ht c1 c2)⟩
  unfold compute
  rw [Nat.min_eq_left hRC]
  dsimp only
  obtain ⟨t, ht'⟩ := key (R - 1) le_rfl
  rw [ht']
  exact ⟨_, rfl⟩

/-- **C81** the computed `Q` is orthogonal up to the same `δ`. -/
theorem c81_orthogonality_partial (R C : Nat) (hRC : R ≤ C) (A : Mat (Fl ρ)) (s : St (Fl ρ)) (κ : ℝ) (hκ : 1 ≤ κ)
    (hN : ((R + 3 : ℕ) : ℝ) * ρ.u < 1) (ht : κ * gam ρ.u (R + 3) ≤ 1 / 200)
    (hc : ∀ n < R - 1, ∀ st, forNM n (step Fl.sqrt C R) (start A) = some st → Cond κ R n (rmat st.m))
    (h : compute Fl.sqrt R C A = some s) (δ : ℝ) (hδ : δ = (1 + 11 * (κ * gam ρ.u (R + 3))) ^ (R - 1) - 1) (i j : Fin R) :
    |∑ k : Fin R, (s.Q i k).val * (s.Q j k).val - (if i = j then 1 else 0)| ≤ 2 * δ + δ ^ 2 := by
  obtain ⟨-, U, -, hU, -, hQ⟩ := c81_backward_partial R C hRC A s κ hκ hN ht hc h
  rw [← hδ] at hQ
  have hu : ∀ i : Fin R, nf (fun k => U i k) = 1 := by
    intro i
    have := congrFun (congrFun hU i) i
    rw [Matrix.mul_apply, Matrix.one_apply_eq] at this
    unfold nf
    rw [show ∑ k, U i k ^ 2 = 1 from (sum_congr rfl fun k _ => by rw [Matrix.transpose_apply, pow_two]).trans this, Real.sqrt_one]
  have hij : ∑ k, U i k * U j k = if i = j then 1 else 0 := by
    have := congrFun (congrFun hU i) j
    rw [Matrix.mul_apply, Matrix.one_apply] at this
    exact (sum_congr rfl fun k _ => by rw [Matrix.transpose_apply]).trans this
  have e : ∑ k : Fin R, (s.Q i k).val * (s.Q j k).val - (if i = j then 1 else 0) =
      ∑ k : Fin R, U i k * ((s.Q j k).val - U j k) + ∑ k : Fin R, ((s.Q i k).val - U i k) * U j k +
        ∑ k : Fin R, ((s.Q i k).val - U i k) * ((s.Q j k).val - U j k) := by
    rw [← hij, ← sum_sub_distrib, ← sum_add_distrib, ← sum_add_distrib]
    exact sum_congr rfl fun k _ => by ring
  have hδ0 : 0 ≤ δ := (nf_nonneg _).trans (hQ i)
  have b1 := cs' (fun k => U i k) (fun k : Fin R => (s.Q j k).val - U j k)
  have b2 := cs' (fun k : Fin R => (s.Q i k).val - U i k) (fun k => U j k)
  have b3 := cs' (fun k : Fin R => (s.Q i k).val - U i k) (fun k : Fin R => (s.Q j k).val - U j k)
  rw [hu] at b1 b2
  have b4 := mul_le_mul (hQ i) (hQ j) (nf_nonneg _) hδ0
  have hi := hQ i
  have hj := hQ j
  rw [e]
  refine (abs_add_three _ _ _).trans ?_
  linarith

/-- a matrix with small rows is a small map -/
theorem nf_mul_rows {R : Nat} (E : Matrix (Fin R) (Fin R) ℝ) (δ : ℝ) (hδ : 0 ≤ δ) (h : ∀ i, nf (fun j => E i j) ≤ δ) (x : Fin R → ℝ) :
    nf (E.mulVec x) ≤ Real.sqrt R * δ * nf x := by
  have h1 : ∀ i, |E.mulVec x i| ≤ δ * nf x := fun i =>
    (cs' (fun j => E i j) x).trans (mul_le_mul_of_nonneg_right (h i) (nf_nonneg _))
  have h2 : nf (E.mulVec x) ≤ nf (fun _ : Fin R => (δ * nf x) * 1) :=
    nf_mono fun i => by
      rw [mul_one, abs_of_nonneg (mul_nonneg hδ (nf_nonneg x))]; exact h1 i
  refine h2.trans (le_of_eq ?_)
  rw [nf_smul, abs_of_nonneg (mul_nonneg hδ (nf_nonneg x))]
  have : nf (fun _ : Fin R => (1:ℝ)) = Real.sqrt R := by unfold nf; simp
  rw [this]; ring

/-- **C81** the product of the computed factors is the input up to a small relative error in every column. -/
theorem c81_residual_partial (R C : Nat) (hRC : R ≤ C) (A : Mat (Fl ρ)) (s : St (Fl ρ)) (κ : ℝ) (hκ : 1 ≤ κ)
    (hN : ((R + 3 : ℕ) : ℝ) * ρ.u < 1) (ht : κ * gam ρ.u (R + 3) ≤ 1 / 200)
    (hc : ∀ n < R - 1, ∀ st, forNM n (step Fl.sqrt C R) (start A) = some st → Cond κ R n (rmat st.m))
    (h : compute Fl.sqrt R C A = some s) (δ : ℝ) (hδ : δ = (1 + 11 * (κ * gam ρ.u (R + 3))) ^ (R - 1) - 1) (c : Nat) (hcC : c < C) :
    Real.sqrt (∑ i : Fin R, (∑ k : Fin R, (s.Q i k).val * (s.m k c).val - (A i c).val) ^ 2) ≤
      (Real.sqrt R * δ * (1 + δ) + δ) * Real.sqrt (∑ i : Fin R, (A i c).val ^ 2) := by
  obtain ⟨-, U, hU', hU, hm, hQ⟩ := c81_backward_partial R C hRC A s κ hκ hN ht hc h
  rw [← hδ] at hQ hm
  set a := colOf R (rmat A) c with ha
  set r := colOf R (rmat s.m) c with hr
  set F := r - U.transpose.mulVec a with hF
  set E : Matrix (Fin R) (Fin R) ℝ := Matrix.of fun i j => (s.Q i j).val - U i j with hE
  have hδ0 : 0 ≤ δ := by
    rw [hδ]
    have hg0 : 0 ≤ gam ρ.u (R + 3) := gam_nonneg ρ.u_nonneg ρ.u_lt_one hN
    have : 1 ≤ (1 + 11 * (κ * gam ρ.u (R + 3))) ^ (R - 1) := one_le_pow₀ (by
      have : 0 ≤ κ * gam ρ.u (R + 3) := by positivity
      linarith)
    linarith
  have hT : U.transpose.transpose * U.transpose = 1 := by rw [Matrix.transpose_transpose]; exact hU
  have hFn : nf F ≤ δ * nf a := hm c hcC
  have hrn : nf r ≤ (1 + δ) * nf a := by
    have e : r = F + U.transpose.mulVec a := by rw [hF]; abel
    rw [e]
    refine (nf_add _ _).trans ?_
    rw [nf_orth _ hT]
    linarith
  have e : (fun i : Fin R => ∑ k : Fin R, (s.Q i k).val * (s.m k c).val - (A i c).val) = E.mulVec r + U.mulVec F := by
    have e1 : U.mulVec F = U.mulVec r - a := by
      rw [hF, Matrix.mulVec_sub, Matrix.mulVec_mulVec, hU, Matrix.one_mulVec]
    rw [e1]
    funext i
    show _ = ∑ k : Fin R, ((s.Q i k).val - U i k) * (s.m k c).val + (∑ k : Fin R, U i k * (s.m k c).val - (A i c).val)
    have : ∑ k : Fin R, (s.Q i k).val * (s.m k c).val = ∑ k : Fin R, ((s.Q i k).val - U i k) * (s.m k c).val + ∑ k : Fin R, U i k * (s.m k c).val := by
      rw [← sum_add_distrib]; exact sum_congr rfl fun k _ => by ring
    rw [this]; ring
  show nf (fun i : Fin R => ∑ k : Fin R, (s.Q i k).val * (s.m k c).val - (A i c).val) ≤ _ * nf a
  rw [e]
  refine (nf_add _ _).trans ?_
  rw [nf_orth U hU']
  have b1 := nf_mul_rows E δ hδ0 hQ r
  have b2 := mul_le_mul_of_nonneg_left hrn (mul_nonneg (Real.sqrt_nonneg R) hδ0)
  nlinarith

end fl

/-! ## What happens when the column is almost reduced -/

/-- nearest integer -/
theorem rne_eq {y : ℝ} {k : ℤ} (h : |y - k| < 1 / 2) : rne y = k := by
  have h1 := abs_le.1 (rne_err y)
  have h2 := abs_lt.1 h
  have h3 : (rne y : ℝ) < k + 1 := by linarith
  have h4 : (k : ℝ) < rne y + 1 := by linarith
  have h3' : rne y < k + 1 := by exact_mod_cast h3
  have h4' : k < rne y + 1 := by exact_mod_cast h4
  omega

/-- rounding in the binade of `1` -/
theorem rnd_one_binade (p : ℕ) {x : ℝ} {k : ℤ} (h1 : 1 ≤ x) (h2 : x < 2) (h : |x * (2:ℝ) ^ ((p:ℤ) - 1) - k| < 1 / 2) :
    rndNearest p x = k * (2:ℝ) ^ (1 - (p:ℤ)) := by
  unfold rndNearest
  rw [ulp_of_binade p x 0 (by simpa using h1) (by simpa using h2)]
  have e : x / (2:ℝ) ^ ((0:ℤ) + 1 - p) = x * (2:ℝ) ^ ((p:ℤ) - 1) := by
    rw [div_eq_mul_inv, ← zpow_neg]; congr 2; ring
  rw [e, rne_eq h]
  congr 2

/-- **C81** breakdown.  In arithmetic with `p` bits, if the first column of a two-row matrix is `(1, y)` with `y² ≤ 2^-(p+1)`
(for `double`: `|y| ≤ 2^-27`), the code divides by zero, whatever the other columns are. -/
theorem c81_breakdown_wrong (p : ℕ) (hp : 1 ≤ p) (C : Nat) (hC : 2 ≤ C) (A : Mat (Fl (Rounding.nearest p hp)))
    (h0 : (A 0 0).val = 1) (h1 : (A 1 0).val ^ 2 ≤ (2:ℝ) ^ (-((p:ℤ) + 1))) : compute Fl.sqrt 2 C A = none := by
  have hr : ∀ x, (Rounding.nearest p hp).rnd x = rndNearest p x := fun _ => rfl
  have r1 : rndNearest p 1 = 1 := (Rounding.nearest p hp).one
  have r0 : rndNearest p 0 = 0 := rndNearest_zero p
  have hnx : (Ops.dot 2 (fun i => A (0 + i) 0) (fun i => A (0 + i) 0)).val = 1 := by
    show rndNearest p (rndNearest p (0 + rndNearest p ((A 0 0).val * (A 0 0).val)) + rndNearest p ((A 1 0).val * (A 1 0).val)) = 1
    rw [h0, one_mul, r1, zero_add, r1]
    set z := rndNearest p ((A 1 0).val * (A 1 0).val) with hz
    have hz0 : 0 ≤ z := rndNearest_nonneg p hp _ (mul_self_nonneg _)
    have hz1 : z ≤ (2:ℝ) ^ (-((p:ℤ) + 1)) := by
      rw [← rndNearest_pow p hp (-((p:ℤ) + 1))]
      exact (Rounding.nearest p hp).mono _ _ (by rw [← pow_two]; exact h1)
    have hlt : (2:ℝ) ^ (-((p:ℤ) + 1)) < 1 := zpow_lt_one_of_neg₀ (by norm_num) (by omega)
    have := rnd_one_binade p (x := 1 + z) (k := 2 ^ (p - 1)) (by linarith) (by linarith) (by
      have e : (((2:ℤ) ^ (p - 1) : ℤ) : ℝ) = (2:ℝ) ^ ((p:ℤ) - 1) := by
        push_cast
        rw [← zpow_natCast]; congr 1; omega
      rw [e]
      have hpos : (0:ℝ) < (2:ℝ) ^ ((p:ℤ) - 1) := by positivity
      have e2 : (1 + z) * (2:ℝ) ^ ((p:ℤ) - 1) - (2:ℝ) ^ ((p:ℤ) - 1) = z * (2:ℝ) ^ ((p:ℤ) - 1) := by ring
      rw [e2, abs_of_nonneg (by positivity)]
      have e3 : (2:ℝ) ^ (-((p:ℤ) + 1)) * (2:ℝ) ^ ((p:ℤ) - 1) = 1 / 4 := by
        rw [← zpow_add₀ (by norm_num), show -((p:ℤ) + 1) + ((p:ℤ) - 1) = -2 by ring]; norm_num
      have := mul_le_mul_of_nonneg_right hz1 hpos.le
      rw [e3] at this
      linarith)
    rw [this]
    push_cast
    rw [← zpow_natCast, ← zpow_add₀ (by norm_num), show ((p - 1 : ℕ) : ℤ) + (1 - (p:ℤ)) = 0 by omega]
    norm_num
  have hpv : (pivot Fl.sqrt 2 0 A).val = 1 := by
    unfold pivot
    have hn : ¬ A 0 0 < 0 := by
      show ¬ (A 0 0).val < 0
      rw [h0]; norm_num
    rw [if_neg hn, Fl.val_mul, Fl.val_sqrt, Nat.sub_zero, hnx, Real.sqrt_one, hr, hr, r1, Fl.val_one, one_mul, r1]
  have hH : heightOf Fl.sqrt 2 0 A = 0 := by
    rw [Fl.eq_zero_iff]
    unfold heightOf reflect
    rw [Fl.val_mul, Mat.set_self, Fl.val_neg, Fl.val_sub, hpv, h0, sub_self, hr, hr, r0, mul_zero, r0]
  unfold compute
  rw [Nat.min_eq_left hC]
  show (forNM 1 (step Fl.sqrt C 2) (start A)).bind _ = none
  rw [forNM_succ, forNM_zero, Option.bind_some]
  unfold step
  rw [show (start A).m = A from rfl, if_pos hH]; rfl


/-- the hypotheses of the theorems hold for `[[0,1],[1,0]]` in `double`, `κ = 1` -/
example : ∃ A : Mat (Fl Rounding.double), (∃ s, compute Fl.sqrt 2 2 A = some s) ∧ ((2 + 3 : ℕ) : ℝ) * Rounding.double.u < 1 ∧
    (1:ℝ) * gam Rounding.double.u (2 + 3) ≤ 1 / 200 ∧
    (∀ n < 2 - 1, ∀ st, forNM n (step Fl.sqrt 2 2) (start A) = some st → Cond 1 2 n (rmat st.m) ∧
      ∃ i, n ≤ i ∧ i < 2 ∧ (st.m i n).val ≠ 0) := by
  set A : Mat (Fl Rounding.double) := fun r c => if r = c then 0 else 1 with hA
  have r1 : rndNearest 53 1 = 1 := Rounding.double.one
  have r0 : rndNearest 53 0 = 0 := rndNearest_zero 53
  have hnx : (Ops.dot 2 (fun i => A (0 + i) 0) (fun i => A (0 + i) 0)).val = 1 := by
    show rndNearest 53 (rndNearest 53 (0 + rndNearest 53 ((0:ℝ) * 0)) + rndNearest 53 ((1:ℝ) * 1)) = 1
    rw [one_mul, mul_zero, r1, r0, zero_add, r0, zero_add, r1]
  have hpv : (pivot Fl.sqrt 2 0 A).val = 1 := by
    unfold pivot
    have hn : ¬ A 0 0 < 0 := by
      show ¬ (0:ℝ) < 0
      norm_num
    rw [if_neg hn, Fl.val_mul, Fl.val_sqrt, Nat.sub_zero, hnx, Real.sqrt_one, Fl.val_one]
    show rndNearest 53 (rndNearest 53 1 * 1) = 1
    rw [r1, one_mul, r1]
  have hH : (heightOf Fl.sqrt 2 0 A).val = 1 := by
    unfold heightOf reflect
    rw [Fl.val_mul, Mat.set_self, Fl.val_neg, Fl.val_sub, hpv]
    show rndNearest 53 (-1 * rndNearest 53 (0 - 1)) = 1
    rw [zero_sub, rndNearest_neg, r1, neg_mul_neg, one_mul, r1]
  refine ⟨A, ⟨⟨(stepRun Fl.sqrt 2 2 0 (start A)).m, transposeLoop 2 (stepRun Fl.sqrt 2 2 0 (start A)).Q⟩, ?_⟩, ?_, ?_, ?_⟩
  · show (forNM 1 (step Fl.sqrt 2 2) (start A)).bind _ = _
    rw [forNM_succ, forNM_zero, Option.bind_some]
    unfold step
    rw [show (start A).m = A from rfl, if_neg (fun h => by rw [Fl.eq_zero_iff, hH] at h; norm_num at h)]; rfl
  · rw [Rounding.double_u]; norm_num
  · rw [Rounding.double_u]; unfold gam; norm_num
  · intro n hn st hst
    obtain rfl : n = 0 := by omega
    obtain rfl := Option.some.inj hst
    have e : ∀ i, rmat (start A).m i 0 = if i = 0 then 0 else 1 := by
      intro i
      show (A i 0).val = _
      rw [hA]
      by_cases hi : i = 0
      · simp [hi]
      · simp [hi]
    refine ⟨?_, 1, by omega, by omega, by have := e 1; unfold rmat at this; rw [this]; norm_num⟩
    unfold Cond
    rw [Nat.sub_zero, sum_range_succ, sum_range_succ, sum_range_zero]
    simp only [zero_add, e]
    norm_num

/-- **C81** no breakdown, but a wrong factorisation.  For the well-conditioned `double` matrix `[[1,0],[y,1]]`, `y = 5·2⁻²⁸ ≈ 1.9e-8`,
the second row of the `Q` returned has squared length below `2/5` instead of `1`, and the product `Q R` has `(1,1)` entry below `2/5`
instead of `1`. -/
theorem c81_not_orthogonal_wrong : ∃ A s, compute (K := Fl Rounding.double) Fl.sqrt 2 2 A = some s ∧
    (A 0 0).val = 1 ∧ (A 0 1).val = 0 ∧ (A 1 0).val = 5 / 2 ^ 28 ∧ (A 1 1).val = 1 ∧
    (s.Q 1 0).val ^ 2 + (s.Q 1 1).val ^ 2 < 2 / 5 ∧
    (s.Q 1 0).val * (s.m 0 1).val + (s.Q 1 1).val * (s.m 1 1).val < 2 / 5 := by
  have r1 : rndNearest 53 1 = 1 := Rounding.double.one
  have r0 : rndNearest 53 0 = 0 := rndNearest_zero 53
  have hy : rndNearest 53 (5 / 2 ^ 28) = 5 / 2 ^ 28 := by
    have := Special.rndNearest_multiple (p := 53) (emin := -28) (by norm_num) 5 (by norm_num)
    norm_num at this ⊢; exact this
  have hyy : rndNearest 53 (25 / 2 ^ 56) = 25 / 2 ^ 56 := by
    have := Special.rndNearest_multiple (p := 53) (emin := -56) (by norm_num) 25 (by norm_num)
    norm_num at this ⊢; exact this
  have hnx0 : rndNearest 53 (1 + 25 / 2 ^ 56) = 1 + 1 / 2 ^ 51 := by
    rw [rnd_one_binade 53 (k := 2 ^ 52 + 2) (by norm_num) (by norm_num) (by norm_num)]
    norm_num
  have hsq : rndNearest 53 (Real.sqrt (1 + 1 / 2 ^ 51)) = 1 + 1 / 2 ^ 52 := by
    have l : 1 + 1 / 2 ^ 52 - 1 / 2 ^ 100 ≤ Real.sqrt (1 + 1 / 2 ^ 51) := Real.le_sqrt_of_sq_le (by norm_num)
    have r : Real.sqrt (1 + 1 / 2 ^ 51) ≤ 1 + 1 / 2 ^ 52 := Real.sqrt_le_iff.2 ⟨by norm_num, by norm_num⟩
    rw [rnd_one_binade 53 (k := 2 ^ 52 + 1) (by linarith [show (0:ℝ) ≤ 1 / 2 ^ 52 - 1 / 2 ^ 100 by norm_num])
      (by linarith [show (1:ℝ) / 2 ^ 52 < 1 by norm_num]) ?_]
    · norm_num
    · have e : (2:ℝ) ^ (((53:ℕ):ℤ) - 1) = 2 ^ 52 := by norm_num
      rw [e]
      push_cast
      rw [abs_lt]
      constructor
      · have := mul_le_mul_of_nonneg_right l (show (0:ℝ) ≤ 2 ^ 52 by positivity)
        norm_num at this ⊢; linarith
      · have := mul_le_mul_of_nonneg_right r (show (0:ℝ) ≤ 2 ^ 52 by positivity)
        norm_num at this ⊢; linarith
  have ha : rndNearest 53 (1 + 1 / 2 ^ 52) = 1 + 1 / 2 ^ 52 := by
    rw [rnd_one_binade 53 (k := 2 ^ 52 + 1) (by norm_num) (by norm_num) (by norm_num)]
    norm_num
  have hu0 : rndNearest 53 (1 - (1 + 1 / 2 ^ 52)) = -(1 / 2 ^ 52) := by
    have := rndNearest_pow 53 (by norm_num) (-52)
    have e : (1:ℝ) - (1 + 1 / 2 ^ 52) = -((2:ℝ) ^ (-52:ℤ)) := by norm_num
    rw [e, rndNearest_neg, this]; norm_num
  set Y : Fl Rounding.double := ⟨5 / 2 ^ 28, hy⟩ with hY
  set A : Mat (Fl Rounding.double) := fun r c => if r = c then 1 else if r = 1 ∧ c = 0 then Y else 0 with hA
  have a00 : A 0 0 = 1 := rfl
  have a01 : A 0 1 = 0 := rfl
  have a10 : A 1 0 = Y := rfl
  have a11 : A 1 1 = 1 := rfl
  have hnx : (Ops.dot 2 (fun i => A (0 + i) 0) (fun i => A (0 + i) 0)).val = 1 + 1 / 2 ^ 51 := by
    show rndNearest 53 (rndNearest 53 (0 + rndNearest 53 ((1:ℝ) * 1)) + rndNearest 53 ((5 / 2 ^ 28:ℝ) * (5 / 2 ^ 28))) = _
    rw [one_mul, r1, zero_add, r1, show (5 / 2 ^ 28:ℝ) * (5 / 2 ^ 28) = 25 / 2 ^ 56 by norm_num, hyy, hnx0]
  have hpv : (pivot Fl.sqrt 2 0 A).val = 1 + 1 / 2 ^ 52 := by
    unfold pivot
    have hn : ¬ A 0 0 < 0 := by
      show ¬ (1:ℝ) < 0
      norm_num
    rw [if_neg hn, Fl.val_mul, Fl.val_sqrt, Nat.sub_zero, hnx, Fl.val_one]
    show rndNearest 53 (rndNearest 53 _ * 1) = _
    rw [hsq, mul_one, ha]
  have hre0 : (reflect Fl.sqrt 2 0 A 0 0).val = -(1 / 2 ^ 52) := by
    unfold reflect
    rw [Mat.set_self, Fl.val_sub, hpv, a00, Fl.val_one]
    exact hu0
  have hre1 : reflect Fl.sqrt 2 0 A 1 0 = Y := by
    unfold reflect
    rw [Mat.set_ne _ _ _ _ _ _ (by omega), a10]
  have hHe : ∀ x, |rndNearest 53 x - x| ≤ 1 / 2 ^ 53 * |x| := by
    intro x
    have := rndNearest_err 53 x
    rw [show (2:ℝ) ^ (-((53:ℕ):ℤ)) = 1 / 2 ^ 53 by norm_num] at this
    exact this
  set H := (heightOf Fl.sqrt 2 0 A).val with hHd
  have hH : |H - (1 + 1 / 2 ^ 52) * (1 / 2 ^ 52)| ≤ 1 / 2 ^ 53 * ((1 + 1 / 2 ^ 52) * (1 / 2 ^ 52)) := by
    have := hHe (-(1 + 1 / 2 ^ 52) * -(1 / 2 ^ 52))
    rw [neg_mul_neg, abs_of_pos (by norm_num : (0:ℝ) < (1 + 1 / 2 ^ 52) * (1 / 2 ^ 52))] at this
    rw [hHd]
    unfold heightOf
    rw [Fl.val_mul, Fl.val_neg, hpv, hre0, neg_mul_neg]
    exact this
  have hHl : 0.999999999 * (1 / 2 ^ 52) ≤ H := by
    have := (abs_le.1 hH).1
    norm_num at this ⊢; linarith
  have hHu : H ≤ 1.000000001 * (1 / 2 ^ 52) := by
    have := (abs_le.1 hH).2
    norm_num at this ⊢; linarith
  have hH0 : 0 < H := lt_of_lt_of_le (by norm_num) hHl
  -- the second column
  have hd : ∀ B : Nat → Fl Rounding.double, B 0 = 0 → B 1 = 1 →
      (Ops.dot 2 (fun i => reflect Fl.sqrt 2 0 A (0 + i) 0) (fun i => B (0 + i))).val = 5 / 2 ^ 28 := by
    intro B b0 b1
    show rndNearest 53 (rndNearest 53 (0 + rndNearest 53 ((reflect Fl.sqrt 2 0 A 0 0).val * (B 0).val)) +
      rndNearest 53 ((reflect Fl.sqrt 2 0 A 1 0).val * (B 1).val)) = _
    rw [b0, b1, hre1, Fl.val_zero, Fl.val_one, mul_zero, mul_one, zero_add, r0, r0]
    show rndNearest 53 (0 + rndNearest 53 (5 / 2 ^ 28)) = _
    rw [hy, zero_add, hy]
  set v := rndNearest 53 (5 / 2 ^ 28 / H) with hv
  have hq1 : 5 / 2 ^ 28 / H ≤ 83886081 := by
    rw [div_le_iff₀ hH0]; norm_num at hHl ⊢; linarith
  have hq2 : 83886079 ≤ 5 / 2 ^ 28 / H := by
    rw [le_div_iff₀ hH0]; norm_num at hHu ⊢; linarith
  have hve := hHe (5 / 2 ^ 28 / H)
  rw [abs_of_pos (show (0:ℝ) < 5 / 2 ^ 28 / H by linarith)] at hve
  have hv1 : v ≤ 83886082 := by
    have := (abs_le.1 hve).2
    norm_num at this ⊢; linarith
  have hv2 : 83886078 ≤ v := by
    have := (abs_le.1 hve).1
    norm_num at this ⊢; linarith
  have hpe := hHe (5 / 2 ^ 28 * v)
  rw [abs_of_pos (show (0:ℝ) < 5 / 2 ^ 28 * v from mul_pos (by norm_num) (by linarith))] at hpe
  set P := rndNearest 53 (5 / 2 ^ 28 * v) with hP
  have hP1 : P ≤ 1.57 := by
    have := (abs_le.1 hpe).2
    norm_num at this ⊢; linarith
  have hP2 : 1.56 ≤ P := by
    have := (abs_le.1 hpe).1
    norm_num at this ⊢; linarith
  have hb := hHe (1 - P)
  rw [abs_of_neg (by linarith : 1 - P < 0)] at hb
  set b := rndNearest 53 (1 - P) with hbd
  have hb1 : b ≤ -0.55 := by
    have := (abs_le.1 hb).2
    norm_num at this ⊢; linarith
  have hb2 : -0.58 ≤ b := by
    have := (abs_le.1 hb).1
    norm_num at this ⊢; linarith
  have hze := hHe (-(1 / 2 ^ 52) * v)
  set z := rndNearest 53 (-(1 / 2 ^ 52) * v) with hz
  have hzz : |(-(1 / 2 ^ 52) * v)| ≤ 1 / 2 ^ 20 := by
    rw [abs_le]; constructor <;> (norm_num; linarith)
  have hz1 : |z| ≤ 1 / 2 ^ 19 := by
    have h1 := abs_le.1 hze
    have h2 := abs_le.1 hzz
    rw [abs_le]
    constructor <;> (norm_num at *; linarith)
  set c := rndNearest 53 (0 - z) with hc
  have hcz : c = -z := by
    rw [hc, zero_sub, rndNearest_neg, hz]
    exact congrArg _ (Rounding.double.idem _)
  have m01 : ((stepRun Fl.sqrt 2 2 0 (start A)).m 0 1).val = c := by
    rw [stepRun_m Fl.sqrt 2 2 0 (by norm_num) (start A) 0 1 (by norm_num) (by norm_num), if_neg (by omega), if_neg (by omega), if_neg (by omega)]
    show rndNearest 53 ((A 0 1).val - rndNearest 53 ((reflect Fl.sqrt 2 0 A 0 0).val * rndNearest 53 ((Ops.dot 2 (fun i => reflect Fl.sqrt 2 0 A (0 + i) 0)
      (fun i => (fun i => A i 1) (0 + i))).val / H))) = _
    rw [hd (fun i => A i 1) a01 a11, hre0, a01]; rfl
  have m11 : ((stepRun Fl.sqrt 2 2 0 (start A)).m 1 1).val = b := by
    rw [stepRun_m Fl.sqrt 2 2 0 (by norm_num) (start A) 1 1 (by norm_num) (by norm_num), if_neg (by omega), if_neg (by omega), if_neg (by omega)]
    show rndNearest 53 ((A 1 1).val - rndNearest 53 ((reflect Fl.sqrt 2 0 A 1 0).val * rndNearest 53 ((Ops.dot 2 (fun i => reflect Fl.sqrt 2 0 A (0 + i) 0)
      (fun i => (fun i => A i 1) (0 + i))).val / H))) = _
    rw [hd (fun i => A i 1) a01 a11, hre1, a11]; rfl
  have q01 : ((stepRun Fl.sqrt 2 2 0 (start A)).Q 0 1).val = c := by
    rw [stepRun_Q Fl.sqrt 2 2 0 (start A) 0 1 (by norm_num) (by norm_num), if_neg (by omega)]
    show rndNearest 53 (0 - rndNearest 53 ((reflect Fl.sqrt 2 0 A 0 0).val * rndNearest 53 ((Ops.dot 2 (fun i => reflect Fl.sqrt 2 0 A (0 + i) 0)
      (fun i => (fun i => (start A).Q i 1) (0 + i))).val / H))) = _
    rw [hd (fun i => (start A).Q i 1) rfl rfl, hre0]
  have q11 : ((stepRun Fl.sqrt 2 2 0 (start A)).Q 1 1).val = b := by
    rw [stepRun_Q Fl.sqrt 2 2 0 (start A) 1 1 (by norm_num) (by norm_num), if_neg (by omega)]
    show rndNearest 53 (1 - rndNearest 53 ((reflect Fl.sqrt 2 0 A 1 0).val * rndNearest 53 ((Ops.dot 2 (fun i => reflect Fl.sqrt 2 0 A (0 + i) 0)
      (fun i => (fun i => (start A).Q i 1) (0 + i))).val / H))) = _
    rw [hd (fun i => (start A).Q i 1) rfl rfl, hre1]
  have hfin : c ^ 2 + b ^ 2 < 2 / 5 := by
    have h1 : c ^ 2 ≤ (1 / 2 ^ 19) ^ 2 := by
      rw [hcz, neg_sq, ← sq_abs]
      exact pow_le_pow_left₀ (abs_nonneg _) hz1 2
    have h2 : b ^ 2 ≤ 0.58 ^ 2 := by
      rw [← neg_sq]
      exact pow_le_pow_left₀ (by linarith) (by linarith) 2
    have : ((1:ℝ) / 2 ^ 19) ^ 2 + 0.58 ^ 2 < 2 / 5 := by norm_num
    linarith
  refine ⟨A, ⟨(stepRun Fl.sqrt 2 2 0 (start A)).m, transposeLoop 2 (stepRun Fl.sqrt 2 2 0 (start A)).Q⟩, ?_, rfl, rfl, rfl, rfl, ?_, ?_⟩
  · show (forNM 1 (step Fl.sqrt 2 2) (start A)).bind _ = _
    rw [forNM_succ, forNM_zero, Option.bind_some]
    unfold step
    rw [show (start A).m = A from rfl, if_neg (fun h => by rw [Fl.eq_zero_iff] at h; exact hH0.ne' h)]; rfl
  · show (transposeLoop 2 (stepRun Fl.sqrt 2 2 0 (start A)).Q 1 0).val ^ 2 + (transposeLoop 2 (stepRun Fl.sqrt 2 2 0 (start A)).Q 1 1).val ^ 2 < _
    rw [transposeLoop_apply, transposeLoop_apply, if_pos (by omega), if_pos (by omega), q01, q11]
    exact hfin
  · show (transposeLoop 2 (stepRun Fl.sqrt 2 2 0 (start A)).Q 1 0).val * ((stepRun Fl.sqrt 2 2 0 (start A)).m 0 1).val +
      (transposeLoop 2 (stepRun Fl.sqrt 2 2 0 (start A)).Q 1 1).val * ((stepRun Fl.sqrt 2 2 0 (start A)).m 1 1).val < _
    rw [transposeLoop_apply, transposeLoop_apply, if_pos (by omega), if_pos (by omega), q01, q11, m01, m11, ← pow_two, ← pow_two]
    exact hfin

end TooN.QRF
