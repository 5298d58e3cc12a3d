import Verif.Proof.GRSVD7
import Mathlib.LinearAlgebra.Matrix.NonsingularInverse
/-! # GR_SVD: the decomposition -/
set_option linter.unusedSectionVars false
set_option linter.unusedVariables false
namespace TooN.GRSVD
open Finset
open scoped Classical
noncomputable section
section
variable {M N : Nat} {wU wV : Bool}

theorem RowT.mono {N K : Nat} (hK : N ≤ K) {T : Vec ℝ → Vec ℝ} (hT : RowT N T) : RowT K T := by
  induction hT with
  | id => exact .id
  | rot p q c s hp hq hne hcs _ ih => exact .rot p q c s (by omega) (by omega) hne hcs ih
  | neg k hk _ ih => exact .neg k (by omega) ih

theorem RowT.local {N : Nat} {T : Vec ℝ → Vec ℝ} (hT : RowT N T) (u w : Vec ℝ) (h : ∀ p, p < N → u p = w p) :
    ∀ p, p < N → T u p = T w p := by
  induction hT with
  | id => exact h
  | rot p q c s hp hq hne hcs _ ih =>
    intro j hj
    simp only [rotRow, ih p hp, ih q hq, ih j hj]
  | neg k hk _ ih =>
    intro j hj
    simp only [negRow, ih j hj]

theorem form_local {k : Nat} (hk : k < N) (d e u v u' v' : Vec ℝ) (hu : ∀ p, p < N → u p = u' p) (hv : ∀ p, p < N → v p = v' p) :
    form N k d e u v = form N k d e u' v' := by
  refine Finset.sum_congr rfl (fun p hp => ?_)
  have hp := mem_range.mp hp
  simp only [row]
  rw [hu p hp, hv p hp]
  by_cases h : p + 1 ≤ k
  · rw [if_pos h, hv (p + 1) (by omega)]
  · rw [if_neg h, zero_mul, zero_mul]

theorem form_bidiag (hN : 1 ≤ N) (d e u v : Vec ℝ) :
    form N (N - 1) d e u v = ∑ p ∈ range N, ∑ q ∈ range N, u p * bidiag d e p q * v q := by
  refine Finset.sum_congr rfl (fun p hp => ?_)
  have hp := mem_range.mp hp
  simp only [row]
  by_cases h : p + 1 ≤ N - 1
  · rw [if_pos h]
    have h1 : ∑ q ∈ range N, u p * bidiag d e p q * v q = ∑ q ∈ range N, ((if q = p then u p * d p * v p else 0) + (if q = p + 1 then u p * e (p + 1) * v (p + 1) else 0)) := by
      refine Finset.sum_congr rfl (fun q _ => ?_)
      simp only [bidiag]
      by_cases e1 : p = q
      · subst e1; simp
      · have e1' : ¬ q = p := fun h => e1 h.symm
        simp only [if_neg e1, if_neg e1']
        by_cases e2 : q = p + 1
        · simp only [e2, zero_add, if_true]
        · simp only [if_neg e2]; ring
    rw [h1, Finset.sum_add_distrib, Finset.sum_ite_eq' , Finset.sum_ite_eq', if_pos (mem_range.mpr hp), if_pos (mem_range.mpr (by omega))]
    ring
  · rw [if_neg h, Finset.sum_eq_single p]
    · simp [bidiag]; ring
    · intro q hq hne
      have := mem_range.mp hq
      rw [bidiag, if_neg (fun h => hne h.symm), if_neg (by omega)]; ring
    · intro h; exact absurd (mem_range.mpr hp) h

theorem orth_rows {K : Nat} (W : Mat ℝ) (h : (asM K K W).transpose * asM K K W = 1) (a b : Nat) (ha : a < K) (hb : b < K) :
    ∑ p ∈ range K, W a p * W b p = if a = b then 1 else 0 := by
  have h2 : asM K K W * (asM K K W).transpose = 1 := mul_eq_one_comm.mp h
  have := congrFun (congrFun h2 ⟨a, ha⟩) ⟨b, hb⟩
  rw [Matrix.mul_apply, Matrix.one_apply] at this
  simp only [asM_apply, Matrix.transpose_apply, Fin.mk.injEq] at this
  rw [← this, ← Fin.sum_univ_eq_sum_range (fun p => W a p * W b p)]

theorem orth_of_rows {K : Nat} (W : Mat ℝ) (h : ∀ a b, a < K → b < K → ∑ p ∈ range K, W a p * W b p = if a = b then 1 else 0) :
    (asM K K W).transpose * asM K K W = 1 := by
  refine mul_eq_one_comm.mp ?_
  ext a b
  rw [Matrix.mul_apply, Matrix.one_apply]
  simp only [asM_apply, Matrix.transpose_apply]
  rw [Fin.sum_univ_eq_sum_range (fun p => W a p * W b p), h a b a.2 b.2]
  simp only [Fin.ext_iff]

end

theorem rightHalf_frame (M N i : Nat) (U : Mat ℝ) (e : Vec ℝ) (r) (h : rightHalf M N i U e = some r) (j : Nat) (hj : j ≤ i) : r.2.1 j = e j := by
  unfold rightHalf at h
  simp only at h
  split at h
  · split at h
    · split at h
      · exact absurd h (by simp)
      · rw [← Option.some.inj h]
        simp only
        by_cases hN : i + 1 ≤ N
        · refine forRange_inv (fun n (w : Vec ℝ) => w j = e j) (i + 1) N hN _ e rfl ?_
          intro k w h1 h2 ih
          rw [Vec.set_ne _ _ _ _ (by omega)]; exact ih
        · rw [forRange_empty _ _ (by omega)]
    · rw [← Option.some.inj h]
  · rw [← Option.some.inj h]

theorem anorm_spec (M N : Nat) (A : Mat ℝ) (d0 e0 : Vec ℝ) (b : BSt) (h : bidiagonalize M N A d0 e0 = some b) :
    b.anorm = 0 ∨ ∃ j, j < N ∧ b.anorm = |b.d j| + |b.e j| := by
  refine forNM_inv (fun n (b : BSt) => b.anorm = 0 ∨ ∃ j, j < n ∧ b.anorm = |b.d j| + |b.e j|) N (bidiagStep M N) _ b (Or.inl rfl) ?_ h
  intro i t t' hi ih ht
  unfold bidiagStep at ht
  simp only at ht
  cases hl : leftHalf M N i t.U with
  | none => rw [hl] at ht; simp at ht
  | some lh =>
    rw [hl, Option.bind_some] at ht
    cases hr : rightHalf M N i lh.1 (Vec.set t.e i (t.scale * t.g)) with
    | none => rw [hr] at ht; simp at ht
    | some rh =>
      rw [hr, Option.bind_some] at ht
      have ht := Option.some.inj ht
      have hf := rightHalf_frame M N i _ _ rh hr
      rw [← ht]
      simp only
      rcases max_cases t.anorm (|Vec.set t.d i (lh.2.1 * lh.2.2) i| + |rh.2.1 i|) with ⟨hm, _⟩ | ⟨hm, _⟩
      · rw [hm]
        rcases ih with h0 | ⟨j, hj, h0⟩
        · exact Or.inl h0
        · refine Or.inr ⟨j, by omega, ?_⟩
          rw [Vec.set_ne _ _ _ _ (by omega), hf j (by omega), Vec.set_ne _ _ _ _ (by omega)]; exact h0
      · exact Or.inr ⟨i, by omega, hm⟩

theorem anorm_nonneg (M N : Nat) (A : Mat ℝ) (d0 e0 : Vec ℝ) (b : BSt) (h : bidiagonalize M N A d0 e0 = some b) : 0 ≤ b.anorm := by
  rcases anorm_spec M N A d0 e0 b h with h | ⟨j, _, h⟩
  · rw [h]
  · rw [h]; positivity

section
variable {M N : Nat} {wU wV : Bool}
/-- everything about the result of the constructor: `W` is `U` completed to a square orthogonal matrix, `A` padded with zero rows is
`W B Vᵀ` with `B` the diagonal matrix of the results (bidiagonal up to `nError` if the iteration limit was hit) -/
theorem svd_core (hN : 1 ≤ N) (negl : ℝ → ℝ → Prop) (ε : ℝ → ℝ) (hn0 : ∀ a, 0 ≤ a → negl a 0)
    (hε : ∀ a x, 0 ≤ a → negl a x → x ≤ ε a) (fuel : Nat) (hf : 31 ≤ fuel)
    (A : Mat ℝ) (d0 e0 : Vec ℝ) (V0 : Mat ℝ) :
    ∃ b st W V, bidiagonalize M N A d0 e0 = some b ∧ svd M N wU wV negl fuel A d0 e0 V0 = some st ∧
      (asM (max M N) (max M N) W).transpose * asM (max M N) (max M N) W = 1 ∧ (asM N N V).transpose * asM N N V = 1 ∧
      (wU = true → ∀ a p, a < M → p < N → st.U a p = W a p) ∧ (wV = true → ∀ b, b < N → st.V b = V b) ∧
      st.nError < N ∧ (∀ j, st.nError < j → j < N → 0 ≤ st.d j) ∧ (st.nError = 0 → 0 ≤ st.d 0) ∧
      ∀ a c, a < max M N → c < N → |(if a < M then A a c else 0) - form N st.nError st.d st.e (W a) (V c)| ≤ 93 * N * ε b.anorm := by
  obtain ⟨b, V1, U1, s1, s2, s3, s4, s5, ⟨P, s6, s7⟩, s8, s9, s10⟩ := start_spec M N hN A d0 e0 V0
  unfold svd
  rw [s1]
  simp only [Option.bind_some]
  rw [s2]
  simp only [Option.bind_some]
  rw [s3]
  simp only [Option.bind_some]
  obtain ⟨st, t1, t2, t3, t4, t5, TU, TV, t6, t7, t8, t9, t10⟩ := diagonalize_spec (M := M) (N := N) (wU := wU) (wV := wV) (negl b.anorm) (ε b.anorm) (hn0 _ (anorm_nonneg M N A d0 e0 b s1)) (fun x => hε _ x (anorm_nonneg M N A d0 e0 b s1)) fuel hf N
    { U := U1, V := V1, d := b.d, e := b.e, nError := 0, nIter := 0 } le_rfl rfl s8
  -- the completed matrix
  let Q : Mat ℝ := fun a p => if h : a < M ∧ p < M then P ⟨a, h.1⟩ ⟨p, h.2⟩ else if a = p then 1 else 0
  have hQ : ∀ a c, a < max M N → c < max M N → ∑ p ∈ range (max M N), Q a p * Q c p = if a = c then 1 else 0 := by
    intro a c ha hc
    by_cases haM : a < M
    · by_cases hcM : c < M
      · have e1 : ∑ p ∈ range (max M N), Q a p * Q c p = ∑ p ∈ range M, Q a p * Q c p := by
          symm
          refine Finset.sum_subset (fun x hx => mem_range.mpr (by have := mem_range.mp hx; omega)) (fun p _ hp => ?_)
          have hp : ¬ p < M := fun h => hp (mem_range.mpr h)
          have : Q a p = 0 := by
            simp only [Q]; rw [dif_neg (by omega), if_neg (by omega)]
          rw [this, zero_mul]
        rw [e1, ← Fin.sum_univ_eq_sum_range (fun p => Q a p * Q c p)]
        have h2 : P * P.transpose = 1 := mul_eq_one_comm.mp s6
        have h3 := congrFun (congrFun h2 ⟨a, haM⟩) ⟨c, hcM⟩
        rw [Matrix.mul_apply, Matrix.one_apply] at h3
        simp only [Matrix.transpose_apply, Fin.mk.injEq] at h3
        rw [← h3]
        refine Finset.sum_congr rfl (fun p _ => ?_)
        simp only [Q]
        rw [dif_pos ⟨haM, p.2⟩, dif_pos ⟨hcM, p.2⟩]
      · rw [if_neg (by omega)]
        refine Finset.sum_eq_zero (fun p _ => ?_)
        simp only [Q]
        rw [dif_neg (show ¬ (c < M ∧ p < M) by omega)]
        by_cases hp : c = p
        · rw [dif_neg (by omega), if_neg (by omega), zero_mul]
        · rw [if_neg hp, mul_zero]
    · have e1 : ∀ p, Q a p = if a = p then 1 else 0 := by
        intro p; simp only [Q]; rw [dif_neg (by omega)]
      rw [Finset.sum_eq_single a]
      · rw [e1, if_pos rfl, one_mul]
        simp only [Q]
        rw [dif_neg (by omega)]
        simp only [eq_comm]
      · intro p _ hp; rw [e1, if_neg (fun h => hp h.symm), zero_mul]
      · intro h; exact absurd (mem_range.mpr ha) h
  have hU1 : ∀ a p, a < M → p < N → U1 a p = Q a p := by
    intro a p ha hp
    have := congrFun (congrFun s7 ⟨a, ha⟩) ⟨p, hp⟩
    rw [asM_apply, Matrix.mul_apply] at this
    simp only [asM_apply, idMat] at this
    rw [this]
    by_cases hpM : p < M
    · simp only [Q]
      rw [dif_pos ⟨ha, hpM⟩, Finset.sum_eq_single (⟨p, hpM⟩ : Fin M)]
      · simp
      · intro c _ hc; rw [if_neg (fun h => hc (Fin.ext h)), mul_zero]
      · intro h; exact absurd (mem_univ _) h
    · simp only [Q]
      rw [dif_neg (by omega), if_neg (by omega)]
      refine Finset.sum_eq_zero (fun c _ => ?_)
      rw [if_neg (by omega), mul_zero]
  have hsqQ : ∀ a, a < max M N → sq N (Q a) ≤ 1 := by
    intro a ha
    have := hQ a a ha ha
    rw [if_pos rfl] at this
    rw [← this]
    exact Finset.sum_le_sum_of_subset_of_nonneg (fun x hx => mem_range.mpr (by have := mem_range.mp hx; omega)) (fun p _ _ => mul_self_nonneg _)
  have hV1 := orth_rows V1 s5
  refine ⟨b, st, fun a => TU (Q a), fun c => TV (V1 c), rfl, t1, ?_, ?_, ?_, ?_, by omega, t4, fun h => t5 h (by omega), ?_⟩
  · refine orth_of_rows _ (fun a c ha hc => ?_)
    rw [(t6.mono (le_max_right M N)).dot]
    exact hQ a c ha hc
  · refine orth_of_rows _ (fun a c ha hc => ?_)
    rw [t7.dot]
    exact hV1 a c ha hc
  · intro hw a p ha hp
    rw [t8 a ha, if_pos hw]
    exact t6.local _ _ (fun p hp => hU1 a p ha hp) p hp
  · intro hw c hc
    rw [t9 c hc, if_pos hw]
  · intro a c ha hc
    have key := t10 (Q a) (V1 c) (hsqQ a ha) (by rw [sq, hV1 c c hc hc, if_pos rfl])
    have : form N (N - 1) b.d b.e (Q a) (V1 c) = if a < M then A a c else 0 := by
      by_cases haM : a < M
      · rw [if_pos haM, form_local (by omega) b.d b.e (Q a) (V1 c) (U1 a) (V1 c) (fun p hp => (hU1 a p haM hp).symm) (fun _ _ => rfl), form_bidiag hN]
        have := congrFun (congrFun s4 ⟨a, haM⟩) ⟨c, hc⟩
        rw [asM_apply] at this
        simp only at this
        rw [this, Matrix.mul_assoc, Matrix.mul_apply, ← Fin.sum_univ_eq_sum_range (fun p => ∑ q ∈ range N, U1 a p * bidiag b.d b.e p q * V1 c q)]
        refine Finset.sum_congr rfl (fun p _ => ?_)
        rw [Matrix.mul_apply, Finset.mul_sum, ← Fin.sum_univ_eq_sum_range (fun q => U1 a p * bidiag b.d b.e p q * V1 c q)]
        refine Finset.sum_congr rfl (fun q _ => ?_)
        simp only [asM_apply, Matrix.transpose_apply]
        ring
      · rw [if_neg haM]
        refine Finset.sum_eq_zero (fun p hp => ?_)
        have hp := mem_range.mp hp
        simp only [Q]
        rw [dif_neg (by omega)]
        by_cases hap : a = p
        · rw [if_pos hap, one_mul, ← hap]
          simp only [row]
          rw [s9 a (by omega) (by omega)]
          by_cases h : a + 1 ≤ N - 1
          · rw [if_pos h, s10 (a + 1) (by omega) (by omega)]; ring
          · rw [if_neg h]; ring
        · rw [if_neg hap, zero_mul]
    rw [← this]
    exact key
end
end
end TooN.GRSVD
