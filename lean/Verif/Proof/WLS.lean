import Verif.Spec.WLS
import Verif.Proof.Ops
import Verif.Props.Ops
import Mathlib.Tactic.Ring
import Mathlib.Tactic.Abel
import Mathlib.Tactic.Linarith
/-! # Effects of the WLS calls -/
set_option linter.unusedSectionVars false
namespace TooN.WLS
open Finset
section generic
variable {K : Type _} [Zero K] [One K] [Add K] [Sub K] [Mul K] [Div K] [DecidableEq K]

theorem plusEqV_apply (k i0 : Nat) (w v : Vec K) (i : Nat) :
    plusEqV k i0 w v i = if i0 ≤ i ∧ i < i0 + k then v i + w (i - i0) else v i := by
  unfold plusEqV
  induction k with
  | zero => rw [forN_zero, if_neg (by omega)]
  | succ k ih =>
    rw [forN_succ]
    by_cases h : i = k + i0
    · subst h
      rw [Vec.set_self, if_pos (by omega), ih, if_neg (by omega)]
      congr 2; omega
    · rw [Vec.set_ne _ _ _ _ h, ih]
      by_cases h2 : i0 ≤ i ∧ i < i0 + k
      · rw [if_pos h2, if_pos (by omega)]
      · rw [if_neg h2, if_neg (by omega)]

theorem plusEqRow_apply (C r r0 c0 : Nat) (m A : Mat K) (i j : Nat) :
    forN C (fun c A => Mat.set A (r + r0) (c + c0) (A (r + r0) (c + c0) + m r c)) A i j =
      if i = r + r0 ∧ c0 ≤ j ∧ j < c0 + C then A i j + m r (j - c0) else A i j := by
  induction C with
  | zero => rw [forN_zero, if_neg (by omega)]
  | succ k ih =>
    rw [forN_succ]
    by_cases h : i = r + r0 ∧ j = k + c0
    · obtain ⟨rfl, rfl⟩ := h
      rw [Mat.set_self, if_pos (by omega), ih, if_neg (by omega)]
      congr 2; omega
    · rw [Mat.set_ne _ _ _ _ _ _ h, ih]
      by_cases h2 : i = r + r0 ∧ c0 ≤ j ∧ j < c0 + k
      · rw [if_pos h2, if_pos (by omega)]
      · rw [if_neg h2, if_neg (by omega)]

theorem plusEqM_apply (R C r0 c0 : Nat) (m A : Mat K) (i j : Nat) :
    plusEqM R C r0 c0 m A i j =
      if (r0 ≤ i ∧ i < r0 + R) ∧ (c0 ≤ j ∧ j < c0 + C) then A i j + m (i - r0) (j - c0) else A i j := by
  unfold plusEqM
  induction R with
  | zero => rw [forN_zero, if_neg (by omega)]
  | succ k ih =>
    rw [forN_succ, plusEqRow_apply]
    by_cases h : i = k + r0 ∧ c0 ≤ j ∧ j < c0 + C
    · obtain ⟨rfl, h⟩ := h
      rw [if_pos ⟨rfl, h⟩, if_pos (by omega), ih, if_neg (by omega)]
      congr 2; omega
    · rw [if_neg h, ih]
      by_cases h2 : (r0 ≤ i ∧ i < r0 + k) ∧ (c0 ≤ j ∧ j < c0 + C)
      · rw [if_pos h2, if_pos (by omega)]
      · rw [if_neg h2, if_neg (by omega)]

theorem addUpperRow_apply (k off r : Nat) (a : K) (J : Vec K) (C : Mat K) (i j : Nat) (hr : r ≤ k) :
    forRange r k (fun c C => Mat.set C (r + off) (c + off) (C (r + off) (c + off) + a * J c)) C i j =
      if i = r + off ∧ r + off ≤ j ∧ j < k + off then C i j + a * J (j - off) else C i j := by
  refine forRange_inv (fun q (D : Mat K) => ∀ i j, D i j =
      if i = r + off ∧ r + off ≤ j ∧ j < q + off then C i j + a * J (j - off) else C i j) r k hr _ C ?_ ?_ i j
  · intro i j; rw [if_neg (by omega)]
  · intro q D hq1 hq2 ih i j
    by_cases h : i = r + off ∧ j = q + off
    · obtain ⟨rfl, rfl⟩ := h
      rw [Mat.set_self, if_pos (by omega), ih, if_neg (by omega)]
      congr 3; omega
    · rw [Mat.set_ne _ _ _ _ _ _ h, ih]
      by_cases h2 : i = r + off ∧ r + off ≤ j ∧ j < q + off
      · rw [if_pos h2, if_pos (by omega)]
      · rw [if_neg h2, if_neg (by omega)]

theorem addUpper_spec (k off : Nat) (m : K) (J : Vec K) (weight : K) (s : St K) :
    (∀ i, (addUpper k off m J weight s).v i =
      if off ≤ i ∧ i < off + k then s.v i + m * (weight * J (i - off)) else s.v i) ∧
    (∀ i j, (addUpper k off m J weight s).C i j =
      if off ≤ i ∧ i ≤ j ∧ j < off + k then s.C i j + weight * J (i - off) * J (j - off) else s.C i j) ∧
    (addUpper k off m J weight s).mu = s.mu := by
  unfold addUpper
  have h := (forN_inv (fun q (t : St K) =>
    (∀ i, t.v i = if off ≤ i ∧ i < off + q then s.v i + m * (weight * J (i - off)) else s.v i) ∧
    (∀ i j, t.C i j = if off ≤ i ∧ i < off + q ∧ i ≤ j ∧ j < off + k then
      s.C i j + weight * J (i - off) * J (j - off) else s.C i j) ∧ t.mu = s.mu) k (fun r s =>
    let Jw := weight * J r
    let s : St K := { s with v := Vec.set s.v (r + off) (s.v (r + off) + m * Jw) }
    { s with C := forRange r k (fun c C => Mat.set C (r + off) (c + off) (C (r + off) (c + off) + Jw * J c)) s.C })
    s ?_ ?_)
  · refine ⟨h.1, fun i j => ?_, h.2.2⟩
    rw [h.2.1]
    by_cases hc : off ≤ i ∧ i ≤ j ∧ j < off + k
    · rw [if_pos hc, if_pos (by omega)]
    · rw [if_neg hc, if_neg (by omega)]
  · exact ⟨fun i => by rw [if_neg (by omega)], fun i j => by rw [if_neg (by omega)], rfl⟩
  · intro q t hq ⟨hv, hC, hmu⟩
    refine ⟨fun i => ?_, fun i j => ?_, hmu⟩
    · show Vec.set t.v (q + off) (t.v (q + off) + m * (weight * J q)) i = _
      by_cases h : i = q + off
      · subst h
        rw [Vec.set_self, if_pos (by omega), hv, if_neg (by omega)]
        congr 4; omega
      · rw [Vec.set_ne _ _ _ _ h, hv]
        by_cases h2 : off ≤ i ∧ i < off + q
        · rw [if_pos h2, if_pos (by omega)]
        · rw [if_neg h2, if_neg (by omega)]
    · show forRange q k (fun c C => Mat.set C (q + off) (c + off)
        (C (q + off) (c + off) + (weight * J q) * J c)) t.C i j = _
      rw [addUpperRow_apply _ _ _ _ _ _ _ _ (by omega)]
      by_cases h : i = q + off ∧ q + off ≤ j ∧ j < k + off
      · rw [if_pos h, if_pos (by omega), hC, if_neg (by omega)]
        have : i - off = q := by omega
        rw [this]
      · rw [if_neg h, hC]
        by_cases h2 : off ≤ i ∧ i < off + q ∧ i ≤ j ∧ j < off + k
        · rw [if_pos h2, if_pos (by omega)]
        · rw [if_neg h2, if_neg (by omega)]

theorem mirror_apply (n : Nat) (C : Mat K) (i j : Nat) :
    mirror n C i j = if i < n ∧ j < i then C j i else C i j := by
  unfold mirror
  rcases Nat.lt_or_ge n 1 with hn | hn
  · rw [forRange_empty _ _ (by omega), if_neg (by omega)]
  have row : ∀ (r : Nat) (D : Mat K) (q : Nat), q ≤ r → ∀ i j,
      forN q (fun c C => Mat.set C r c (C c r)) D i j = if i = r ∧ j < q then D j i else D i j := by
    intro r D q hq
    induction q with
    | zero => intro i j; rw [forN_zero, if_neg (by omega)]
    | succ q ih =>
      intro i j
      rw [forN_succ]
      by_cases h : i = r ∧ j = q
      · obtain ⟨rfl, rfl⟩ := h
        rw [Mat.set_self, if_pos (by omega), ih (by omega), if_neg (by omega)]
      · rw [Mat.set_ne _ _ _ _ _ _ h, ih (by omega)]
        by_cases h2 : i = r ∧ j < q
        · rw [if_pos h2, if_pos (by omega)]
        · rw [if_neg h2, if_neg (by omega)]
  refine forRange_inv (fun q (D : Mat K) => ∀ i j, D i j = if i < q ∧ j < i then C j i else C i j)
    1 n hn _ C ?_ ?_ i j
  · intro i j; rw [if_neg (by omega)]
  · intro q D h1 h2 ih i j
    rw [row q D q le_rfl]
    by_cases h : i = q ∧ j < q
    · rw [if_pos h, if_pos (by omega), ih, if_neg (by omega)]
    · rw [if_neg h, ih]
      by_cases h3 : i < q ∧ j < i
      · rw [if_pos h3, if_pos (by omega)]
      · rw [if_neg h3, if_neg (by omega)]

/-! ## the abstraction relation -/

end generic

variable {K : Type _} [Field K] [DecidableEq K]

/-- total information matrix of a list of measurements -/
def sumInfo {n : Nat} (ms : List (Meas n K)) : Matrix (Fin n) (Fin n) K := (ms.map Meas.info).sum
/-- total information vector -/
def sumRhs {n : Nat} (ms : List (Meas n K)) : Fin n → K := (ms.map Meas.rhs).sum

/-- the upper triangle and the vector hold the sums -/
def Holds (n : Nat) (s : St K) (ms : List (Meas n K)) : Prop :=
  (∀ i j : Fin n, i ≤ j → s.C i j = sumInfo ms i j) ∧ (∀ i : Fin n, s.v i = sumRhs ms i)

theorem sumInfo_append {n : Nat} (ms ms' : List (Meas n K)) : sumInfo (ms ++ ms') = sumInfo ms + sumInfo ms' := by
  simp [sumInfo]
theorem sumRhs_append {n : Nat} (ms ms' : List (Meas n K)) : sumRhs (ms ++ ms') = sumRhs ms + sumRhs ms' := by
  simp [sumRhs]
theorem sumInfo_singleton {n : Nat} (z : Meas n K) : sumInfo [z] = z.info := by simp [sumInfo]
theorem sumRhs_singleton {n : Nat} (z : Meas n K) : sumRhs [z] = z.rhs := by simp [sumRhs]

theorem Holds.snoc {n : Nat} {s s' : St K} {ms : List (Meas n K)} {z : Meas n K} (h : Holds n s ms)
    (hC : ∀ i j : Fin n, i ≤ j → s'.C i j = s.C i j + z.info i j)
    (hv : ∀ i : Fin n, s'.v i = s.v i + z.rhs i) : Holds n s' (ms ++ [z]) := by
  refine ⟨fun i j hij => ?_, fun i => ?_⟩
  · rw [hC i j hij, h.1 i j hij, sumInfo_append, sumInfo_singleton]; rfl
  · rw [hv i, h.2 i, sumRhs_append, sumRhs_singleton]; rfl

theorem info_mk (n N : Nat) (m : Fin N → K) (J : Matrix (Fin N) (Fin n) K) (W : Matrix (Fin N) (Fin N) K) :
    (⟨N, m, J, W⟩ : Meas n K).info = J.transpose * W * J := rfl
theorem rhs_mk (n N : Nat) (m : Fin N → K) (J : Matrix (Fin N) (Fin n) K) (W : Matrix (Fin N) (Fin N) K) :
    (⟨N, m, J, W⟩ : Meas n K).rhs = (J.transpose * W).mulVec m := rfl

theorem info_prior {n : Nat} (P : Matrix (Fin n) (Fin n) K) : (Meas.prior P).info = P :=
  (info_mk n n 0 1 P).trans (by rw [Matrix.transpose_one, one_mul, mul_one])

theorem rhs_prior {n : Nat} (P : Matrix (Fin n) (Fin n) K) : (Meas.prior P).rhs = 0 :=
  (rhs_mk n n 0 1 P).trans (by rw [Matrix.mulVec_zero])

theorem info_scalar {n : Nat} (m : K) (J : Fin n → K) (w : K) (i j : Fin n) :
    (Meas.scalar m J w).info i j = w * J i * J j := by
  rw [Meas.scalar, info_mk]
  simp only [Matrix.mul_apply, Matrix.transpose_apply, Matrix.of_apply, Finset.univ_unique, Finset.sum_singleton]
  ring

theorem rhs_scalar {n : Nat} (m : K) (J : Fin n → K) (w : K) (i : Fin n) :
    (Meas.scalar m J w).rhs i = m * (w * J i) := by
  rw [Meas.scalar, rhs_mk]
  simp [Matrix.mulVec, dotProduct, Matrix.mul_apply, Matrix.transpose_apply]
  ring

theorem asM_T (r c : Nat) (A : Mat K) : asM c r (Mat.T A) = (asM r c A).transpose := by
  ext i j; rfl

/-- the block update of `C`, elementwise, when the block is a product `Xᵀ W Y` of padded Jacobians -/
theorem pad_info (N n S1 S2 i1 i2 : Nat) (J1 J2 W : Mat K) (ju1 ju2 : Mat K)
    (h1 : i1 + S1 ≤ n) (h2 : i2 + S2 ≤ n) (A : Mat K) (i j : Fin n) :
    plusEqM S1 S2 i1 i2 (Ops.mulMM S1 N S2 (Ops.mulMM S1 N N (Mat.T J1) W ju1) J2 ju2) A i j =
      A i j + ((padM N S1 n i1 J1).transpose * asM N N W * padM N S2 n i2 J2) i j := by
  rw [plusEqM_apply]
  by_cases h : (i1 ≤ (i:Nat) ∧ (i:Nat) < i1 + S1) ∧ (i2 ≤ (j:Nat) ∧ (j:Nat) < i2 + S2)
  · rw [if_pos h]
    congr 1
    have hM := Ops.c09_mul_matrix S1 N S2 (Ops.mulMM S1 N N (Mat.T J1) W ju1) J2 ju2
    rw [Ops.c09_mul_matrix S1 N N, asM_T] at hM
    have hm : Ops.mulMM S1 N S2 (Ops.mulMM S1 N N (Mat.T J1) W ju1) J2 ju2 (i - i1) (j - i2) =
        ((asM N S1 J1).transpose * asM N N W * asM N S2 J2) ⟨i - i1, by omega⟩ ⟨j - i2, by omega⟩ :=
      congrFun (congrFun hM ⟨i - i1, by omega⟩) ⟨j - i2, by omega⟩
    rw [hm]
    simp only [Matrix.mul_apply, Matrix.transpose_apply, padM, Matrix.of_apply, asM_apply]
    simp only [if_pos h.1, if_pos h.2]
  · rw [if_neg h]
    have : ((padM N S1 n i1 J1).transpose * asM N N W * padM N S2 n i2 J2) i j = 0 := by
      simp only [Matrix.mul_apply, Matrix.transpose_apply, padM, Matrix.of_apply, asM_apply]
      by_cases hi : i1 ≤ (i:Nat) ∧ (i:Nat) < i1 + S1
      · have hj : ¬ (i2 ≤ (j:Nat) ∧ (j:Nat) < i2 + S2) := fun hj => h ⟨hi, hj⟩
        simp [if_neg hj]
      · simp [if_neg hi]
    rw [this, add_zero]

theorem pad_rhs (N n S1 i1 : Nat) (m : Vec K) (J1 W : Mat K) (ju1 : Mat K) (ju2 : Vec K)
    (h1 : i1 + S1 ≤ n) (v : Vec K) (i : Fin n) :
    plusEqV S1 i1 (Ops.mulMV S1 N (Ops.mulMM S1 N N (Mat.T J1) W ju1) m ju2) v i =
      v i + ((padM N S1 n i1 J1).transpose * asM N N W).mulVec (asV N m) i := by
  rw [plusEqV_apply]
  by_cases h : i1 ≤ (i:Nat) ∧ (i:Nat) < i1 + S1
  · rw [if_pos h]
    congr 1
    have hM := (Ops.c09_mul_vector S1 N (Ops.mulMM S1 N N (Mat.T J1) W ju1) m (fun _ => 0) ju2 ju2).1
    rw [Ops.c09_mul_matrix S1 N N, asM_T] at hM
    have hm : Ops.mulMV S1 N (Ops.mulMM S1 N N (Mat.T J1) W ju1) m ju2 (i - i1) =
        ((asM N S1 J1).transpose * asM N N W).mulVec (asV N m) ⟨i - i1, by omega⟩ :=
      congrFun hM ⟨i - i1, by omega⟩
    rw [hm]
    simp only [Matrix.mulVec, dotProduct, Matrix.mul_apply, Matrix.transpose_apply, padM, Matrix.of_apply,
      asM_apply]
    simp only [if_pos h]
  · rw [if_neg h]
    have : ((padM N S1 n i1 J1).transpose * asM N N W).mulVec (asV N m) i = 0 := by
      simp [Matrix.mulVec, dotProduct, Matrix.mul_apply, Matrix.transpose_apply, padM, if_neg h]
    rw [this, add_zero]

theorem padM_full (N n : Nat) (J : Mat K) : padM N n n 0 J = asM N n J := by
  ext r c
  simp [padM]

theorem T_T (J : Mat K) : Mat.T (Mat.T J) = J := rfl

theorem info_mJs {n S : Nat} (m : Vec K) (J : Mat K) (w : K) (i j : Fin n) :
    (⟨S, asV S m, asM S n J, Matrix.diagonal fun _ => w⟩ : Meas n K).info i j =
      ∑ r ∈ range S, w * J r i * J r j := by
  rw [sum_range_fin]
  rw [info_mk]
  simp only [Matrix.mul_diagonal, Matrix.mul_apply (M := _ * _), Matrix.transpose_apply, asM_apply]
  refine Finset.sum_congr rfl fun r _ => by ring

theorem rhs_mJs {n S : Nat} (m : Vec K) (J : Mat K) (w : K) (i : Fin n) :
    (⟨S, asV S m, asM S n J, Matrix.diagonal fun _ => w⟩ : Meas n K).rhs i =
      ∑ r ∈ range S, m r * (w * J r i) := by
  rw [sum_range_fin]
  rw [rhs_mk]
  simp only [Matrix.mulVec, dotProduct, Matrix.transpose_apply, asM_apply, asV_apply,
    Matrix.mul_diagonal]
  refine Finset.sum_congr rfl fun r _ => by ring

theorem addmJs_spec (n S : Nat) (m : Vec K) (J : Mat K) (w : K) (s : St K) :
    (∀ i j : Fin n, i ≤ j → (addmJs n S m J w s).C i j = s.C i j + ∑ r ∈ range S, w * J r i * J r j) ∧
    (∀ i : Fin n, (addmJs n S m J w s).v i = s.v i + ∑ r ∈ range S, m r * (w * J r i)) := by
  unfold addmJs
  induction S with
  | zero => simp
  | succ q ih =>
    obtain ⟨h1, h2⟩ := ih
    rw [forN_succ]
    obtain ⟨a1, a2, -⟩ := addUpper_spec n 0 (m q) (J q) w (forN q (fun r s => addmJ n (m r) (J r) w s) s)
    refine ⟨fun i j hij => ?_, fun i => ?_⟩
    · have hij' : (i:Nat) ≤ j := hij
      show (addUpper _ _ _ _ _ _).C i j = _
      rw [a2, if_pos (by omega), h1 i j hij, sum_range_succ, add_assoc]; rfl
    · show (addUpper _ _ _ _ _ _).v i = _
      rw [a1, if_pos (by omega), h2 i, sum_range_succ, add_assoc]; rfl

theorem reach_holds {n : Nat} {s : St K} {ms : List (Meas n K)} (h : Reach n s ms) : Holds n s ms := by
  induction h with
  | construct C0 v0 =>
    refine ⟨fun i j _ => ?_, fun i => ?_⟩
    · show Ops.zerosM n n C0 i j = _
      rw [Ops.zerosM, evalM_apply, if_pos (by omega)]; rfl
    · show Ops.zerosV n v0 i = _
      rw [Ops.zerosV, forN_vecset, if_pos i.2]; rfl
  | @clear s ms _ ih =>
    refine ⟨fun i j _ => ?_, fun i => ?_⟩
    · show Ops.zerosM n n s.C i j = _
      rw [Ops.zerosM, evalM_apply, if_pos (by omega)]; rfl
    · show Ops.zerosV n s.v i = _
      rw [Ops.zerosV, forN_vecset, if_pos i.2]; rfl
  | @priorS s ms val _ ih =>
    refine ih.snoc (fun i j _ => ?_) (fun i => ?_)
    · show forN n (fun i C => Mat.set C i i (C i i + val)) s.C i j = _
      rw [forN_diagupd n (fun _ x => x + val), info_prior, Matrix.diagonal_apply]
      by_cases e : i = j
      · subst e; simp
      · rw [if_neg e, if_neg (fun h => e (Fin.ext h.1)), add_zero]
    · rw [rhs_prior]; simp [addPriorS]
  | @priorV s ms p _ ih =>
    refine ih.snoc (fun i j _ => ?_) (fun i => ?_)
    · show forN n (fun i C => Mat.set C i i (C i i + p i)) s.C i j = _
      rw [forN_diagupd n (fun i x => x + p i), info_prior, Matrix.diagonal_apply]
      by_cases e : i = j
      · subst e; simp
      · rw [if_neg e, if_neg (fun h => e (Fin.ext h.1)), add_zero]
    · rw [rhs_prior]; simp [addPriorV]
  | @priorM s ms P _ _ ih =>
    refine ih.snoc (fun i j _ => ?_) (fun i => ?_)
    · show plusEqM n n 0 0 P s.C i j = _
      rw [plusEqM_apply, if_pos (by omega), info_prior]; rfl
    · rw [rhs_prior]; simp [addPriorM]
  | @mJ s ms m J w _ ih =>
    obtain ⟨a1, a2, -⟩ := addUpper_spec n 0 m J w s
    refine ih.snoc (fun i j hij => ?_) (fun i => ?_)
    · have hij' : (i:Nat) ≤ j := hij
      show (addUpper _ _ _ _ _ _).C i j = _
      rw [a2, if_pos (by omega), info_scalar]; rfl
    · show (addUpper _ _ _ _ _ _).v i = _
      rw [a1, if_pos (by omega), rhs_scalar]; rfl
  | @mJs s ms S m J w _ ih =>
    obtain ⟨a1, a2⟩ := addmJs_spec n S m J w s
    refine ih.snoc (fun i j hij => ?_) (fun i => ?_)
    · rw [a1 i j hij, info_mJs]
    · rw [a2 i, rhs_mJs]
  | @mJcov s ms N m J W ju _ _ ih =>
    refine ih.snoc (fun i j hij => ?_) (fun i => ?_)
    · have := pad_info N n n n 0 0 (Mat.T J) (Mat.T J) W (ju 0) (ju 1) (by omega) (by omega) s.C i j
      rw [T_T, padM_full, asM_T] at this
      exact this
    · have := pad_rhs N n n 0 m (Mat.T J) W (ju 0) (ju 2 0) (by omega) s.v i
      rw [T_T, padM_full, asM_T] at this
      exact this
  | @mJrows s ms N m J W ju _ _ ih =>
    refine ih.snoc (fun i j hij => ?_) (fun i => ?_)
    · have := pad_info N n n n 0 0 J J W (ju 0) (ju 1) (by omega) (by omega) s.C i j
      rw [padM_full] at this
      exact this
    · have := pad_rhs N n n 0 m J W (ju 0) (ju 2 0) (by omega) s.v i
      rw [padM_full] at this
      exact this
  | @sparse s ms k m J1 idx w hk _ ih =>
    obtain ⟨a1, a2, -⟩ := addUpper_spec k idx m J1 w s
    refine ih.snoc (fun i j hij => ?_) (fun i => ?_)
    · have hij' : (i:Nat) ≤ j := hij
      show (addUpper _ _ _ _ _ _).C i j = _
      rw [a2, info_scalar, padV, padV]
      by_cases h : idx ≤ (i:Nat) ∧ (i:Nat) ≤ j ∧ (j:Nat) < idx + k
      · rw [if_pos h, if_pos (by omega), if_pos (by omega)]
      · rw [if_neg h]
        by_cases hi : idx ≤ (i:Nat) ∧ (i:Nat) < idx + k
        · rw [if_neg (c := idx ≤ (j:Nat) ∧ (j:Nat) < idx + k) (by omega), mul_zero, add_zero]
        · rw [if_neg hi, mul_zero, zero_mul, add_zero]
    · show (addUpper _ _ _ _ _ _).v i = _
      rw [a1, rhs_scalar, padV]
      by_cases h : idx ≤ (i:Nat) ∧ (i:Nat) < idx + k
      · rw [if_pos h, if_pos h]
      · rw [if_neg h, if_neg h, mul_zero, mul_zero, add_zero]
  | @sparseRows s ms N S1 m J1 idx W ju h1 _ _ ih =>
    refine ih.snoc (fun i j hij => ?_) (fun i => ?_)
    · exact pad_info N n S1 S1 idx idx J1 J1 W (ju 0) (ju 1) h1 h1 s.C i j
    · exact pad_rhs N n S1 idx m J1 W (ju 0) (ju 2 0) h1 s.v i
  | @sparseRows2 s ms N S1 S2 m J1 i1 J2 i2 W ju h1 h2 hW _ ih =>
    set P := padM N S1 n i1 J1
    set Q := padM N S2 n i2 J2
    refine ih.snoc (fun i j hij => ?_) (fun i => ?_)
    · have hT : ∀ A : Mat K, plusEqM S2 S1 i2 i1 (Mat.T (Ops.mulMM S1 N S2
          (Ops.mulMM S1 N N (Mat.T J1) W (ju 0)) J2 (ju 2))) A i j =
          A i j + (Q.transpose * asM N N W * P) i j := by
        intro A
        have h' := pad_info N n S1 S2 i1 i2 J1 J2 W (ju 0) (ju 2) h1 h2 (Mat.T A) j i
        have e : (Q.transpose * asM N N W * P) i j = (P.transpose * asM N N W * Q) j i := by
          have : (P.transpose * asM N N W * Q).transpose = Q.transpose * asM N N W * P := by
            rw [Matrix.transpose_mul, Matrix.transpose_mul, hW, Matrix.transpose_transpose, Matrix.mul_assoc]
          rw [← this]; rfl
        rw [e, show A i j = Mat.T A j i from rfl, ← h', plusEqM_apply, plusEqM_apply]
        by_cases hc : (i2 ≤ (i:Nat) ∧ (i:Nat) < i2 + S2) ∧ (i1 ≤ (j:Nat) ∧ (j:Nat) < i1 + S1)
        · rw [if_pos hc, if_pos ⟨hc.2, hc.1⟩]; rfl
        · rw [if_neg hc, if_neg (fun h => hc ⟨h.2, h.1⟩)]; rfl
      show plusEqM S2 S1 i2 i1 _ (plusEqM S1 S2 i1 i2 _ (plusEqM S2 S2 i2 i2 _ (plusEqM S1 S1 i1 i1 _ s.C))) i j = _
      rw [hT, pad_info _ _ _ _ _ _ _ _ _ _ _ h1 h2, pad_info _ _ _ _ _ _ _ _ _ _ _ h2 h2,
        pad_info _ _ _ _ _ _ _ _ _ _ _ h1 h1]
      show _ = s.C i j + ((P + Q).transpose * asM N N W * (P + Q)) i j
      rw [Matrix.transpose_add, Matrix.add_mul, Matrix.add_mul, Matrix.mul_add, Matrix.mul_add]
      simp only [Matrix.add_apply]
      ring
    · show plusEqV S2 i2 _ (plusEqV S1 i1 _ s.v) i = _
      rw [pad_rhs _ _ _ _ _ _ _ _ _ h2, pad_rhs _ _ _ _ _ _ _ _ _ h1]
      show _ = s.v i + ((P + Q).transpose * asM N N W).mulVec (asV N m) i
      rw [Matrix.transpose_add, Matrix.add_mul, Matrix.add_mulVec]
      simp only [Pi.add_apply]
      ring
  | @compute s ms u w _ ih =>
    refine ⟨fun i j hij => ?_, ih.2⟩
    have hij' : (i:Nat) ≤ j := hij
    show mirror n s.C i j = _
    rw [mirror_apply, if_neg (by omega), ih.1 i j hij]
  | @plusEq s ms s' ms' _ _ ih1 ih2 =>
    refine ⟨fun i j hij => ?_, fun i => ?_⟩
    · show plusEqM n n 0 0 s'.C s.C i j = _
      rw [plusEqM_apply, if_pos (by omega), ih1.1 i j hij, sumInfo_append]
      show _ + s'.C i j = _
      rw [ih2.1 i j hij]; rfl
    · show plusEqV n 0 s'.v s.v i = _
      rw [plusEqV_apply, if_pos (by omega), ih1.2 i, sumRhs_append]
      show _ + s'.v i = _
      rw [ih2.2 i]; rfl

/-- measurements of a legal history have symmetric inverse covariances -/
theorem reach_symm {n : Nat} {s : St K} {ms : List (Meas n K)} (h : Reach n s ms) :
    ∀ z ∈ ms, z.W.transpose = z.W := by
  induction h with
  | construct => simp
  | clear => simp
  | priorS val _ ih => intro z hz; rcases List.mem_append.1 hz with h | h
                       · exact ih z h
                       · rw [List.mem_singleton.1 h]; exact Matrix.diagonal_transpose _
  | priorV p _ ih => intro z hz; rcases List.mem_append.1 hz with h | h
                     · exact ih z h
                     · rw [List.mem_singleton.1 h]; exact Matrix.diagonal_transpose _
  | priorM P hP _ ih => intro z hz; rcases List.mem_append.1 hz with h | h
                        · exact ih z h
                        · rw [List.mem_singleton.1 h]; exact hP
  | mJ m J w _ ih => intro z hz; rcases List.mem_append.1 hz with h | h
                     · exact ih z h
                     · rw [List.mem_singleton.1 h]; rfl
  | mJs S m J w _ ih => intro z hz; rcases List.mem_append.1 hz with h | h
                        · exact ih z h
                        · rw [List.mem_singleton.1 h]; exact Matrix.diagonal_transpose _
  | mJcov N m J W ju hW _ ih => intro z hz; rcases List.mem_append.1 hz with h | h
                                · exact ih z h
                                · rw [List.mem_singleton.1 h]; exact hW
  | mJrows N m J W ju hW _ ih => intro z hz; rcases List.mem_append.1 hz with h | h
                                 · exact ih z h
                                 · rw [List.mem_singleton.1 h]; exact hW
  | sparse k m J1 idx w hk _ ih => intro z hz; rcases List.mem_append.1 hz with h | h
                                   · exact ih z h
                                   · rw [List.mem_singleton.1 h]; rfl
  | sparseRows N S1 m J1 idx W ju h1 hW _ ih => intro z hz; rcases List.mem_append.1 hz with h | h
                                                · exact ih z h
                                                · rw [List.mem_singleton.1 h]; exact hW
  | sparseRows2 N S1 S2 m J1 i1 J2 i2 W ju h1 h2 hW _ ih =>
    intro z hz; rcases List.mem_append.1 hz with h | h
    · exact ih z h
    · rw [List.mem_singleton.1 h]; exact hW
  | compute u w _ ih => exact ih
  | plusEq _ _ ih1 ih2 => intro z hz; rcases List.mem_append.1 hz with h | h
                          · exact ih1 z h
                          · exact ih2 z h

theorem info_symm {n : Nat} (z : Meas n K) (h : z.W.transpose = z.W) : z.info.transpose = z.info := by
  rw [Meas.info, Matrix.transpose_mul, Matrix.transpose_mul, h, Matrix.transpose_transpose, Matrix.mul_assoc]

theorem sumInfo_symm {n : Nat} (ms : List (Meas n K)) (h : ∀ z ∈ ms, z.W.transpose = z.W) :
    (sumInfo ms).transpose = sumInfo ms := by
  induction ms with
  | nil => simp [sumInfo]
  | cons z ms ih =>
    have e : sumInfo (z :: ms) = z.info + sumInfo ms := by simp [sumInfo]
    rw [e, Matrix.transpose_add, info_symm z (h z (by simp)), ih (fun y hy => h y (by simp [hy]))]

/-- after mirroring, `C` is the whole information matrix -/
theorem mirror_eq {n : Nat} {s : St K} {ms : List (Meas n K)} (h : Reach n s ms) :
    asM n n (mirror n s.C) = sumInfo ms := by
  have hh := reach_holds h
  have hs := sumInfo_symm ms (reach_symm h)
  ext i j
  rw [asM_apply, mirror_apply]
  by_cases hij : j < i
  · have : (j:Nat) < i := hij
    rw [if_pos (by omega), hh.1 j i (by omega)]; exact (congrFun (congrFun hs i) j)
  · have hle : i ≤ j := not_lt.1 hij
    have : (i:Nat) ≤ j := hle
    rw [if_neg (by omega), hh.1 i j hle]

/-- expansion of the cost of one measurement -/
theorem cost_expand {n : Nat} (z : Meas n K) (hz : z.W.transpose = z.W) (x : Fin n → K) :
    z.cost x = dotProduct x (z.info.mulVec x) - 2 * dotProduct x z.rhs + z.cost 0 := by
  have hsym : ∀ a b : Fin z.N → K, dotProduct a (z.W.mulVec b) = dotProduct b (z.W.mulVec a) := by
    intro a b
    rw [Matrix.dotProduct_mulVec, ← Matrix.mulVec_transpose, hz, dotProduct_comm]
  have e1 : dotProduct x (z.info.mulVec x) = dotProduct (z.J.mulVec x) (z.W.mulVec (z.J.mulVec x)) := by
    rw [Meas.info, ← Matrix.mulVec_mulVec, ← Matrix.mulVec_mulVec, Matrix.dotProduct_mulVec,
      Matrix.vecMul_transpose]
  have e2 : dotProduct x z.rhs = dotProduct (z.J.mulVec x) (z.W.mulVec z.m) := by
    rw [Meas.rhs, ← Matrix.mulVec_mulVec, Matrix.dotProduct_mulVec, Matrix.vecMul_transpose]
  rw [e1, e2, Meas.cost, Meas.cost, Matrix.mulVec_zero, sub_zero, Matrix.mulVec_sub, dotProduct_sub,
    sub_dotProduct, sub_dotProduct, hsym z.m (z.J.mulVec x)]
  ring

/-- total weighted sum of squares -/
def totalCost {n : Nat} (ms : List (Meas n K)) (x : Fin n → K) : K := (ms.map fun z => z.cost x).sum

theorem totalCost_expand {n : Nat} (ms : List (Meas n K)) (h : ∀ z ∈ ms, z.W.transpose = z.W) (x : Fin n → K) :
    totalCost ms x = dotProduct x ((sumInfo ms).mulVec x) - 2 * dotProduct x (sumRhs ms) + totalCost ms 0 := by
  induction ms with
  | nil => simp [totalCost, sumInfo, sumRhs]
  | cons z ms ih =>
    have e1 : sumInfo (z :: ms) = z.info + sumInfo ms := by simp [sumInfo]
    have e2 : sumRhs (z :: ms) = z.rhs + sumRhs ms := by simp [sumRhs]
    have e3 : ∀ y, totalCost (z :: ms) y = z.cost y + totalCost ms y := by intro y; simp [totalCost]
    rw [e1, e2, e3, e3, ih (fun y hy => h y (by simp [hy])), cost_expand z (h z (by simp)),
      Matrix.add_mulVec, dotProduct_add, dotProduct_add]
    ring

end TooN.WLS
