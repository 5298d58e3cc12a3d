import Verif.Proof.WLS
import Verif.Props.Cholesky
/-!
# C23–C25: weighted least squares

`Reach n s ms` (Spec/WLS.lean): `s` is the state of a `WLS` object after some history of API calls, and
`ms` the measurements that history denotes.  `sumInfo ms = Σ JᵀWJ`, `sumRhs ms = Σ JᵀWm`,
`totalCost ms x = Σ (m-Jx)ᵀW(m-Jx)`.
-/
set_option linter.unusedSectionVars false
namespace TooN.WLS
open Finset

section field
variable {K : Type _} [Field K] [DecidableEq K]

/-- **C23** after `compute()`, the matrix and vector returned by `get_C_inv()`, `get_vector()` are the whole
accumulated information matrix and vector. -/
theorem c23_information {n : Nat} {s : St K} {ms : List (Meas n K)} (h : Reach n s ms) (u w : Vec K) :
    asM n n (compute n u w s).C = (ms.map fun z => z.J.transpose * z.W * z.J).sum ∧
    asV n (compute n u w s).v = (ms.map fun z => (z.J.transpose * z.W).mulVec z.m).sum :=
  ⟨mirror_eq h, funext fun i => (reach_holds h).2 i⟩

/-- the outcome of `compute()` is determined by the accumulated sums alone -/
theorem compute_mu {n : Nat} {s : St K} {ms : List (Meas n K)} (h : Reach n s ms) (u w : Vec K) :
    ((∀ k, k ≤ n → (asM k k (lowerSym (mirror n s.C))).det ≠ 0) →
      ∃ x, (compute n u w s).mu = some x ∧ (sumInfo ms).mulVec (asV n x) = sumRhs ms ∧
        ∀ z, (sumInfo ms).mulVec z = sumRhs ms → z = asV n x) ∧
    (¬ (∀ k, k ≤ n → (asM k k (lowerSym (mirror n s.C))).det ≠ 0) → (compute n u w s).mu = none) := by
  have hm := mirror_eq h
  have hs : asM n n (lowerSym (mirror n s.C)) = sumInfo ms := by
    rw [lowerSym_of_symm, hm]; rw [hm]; exact sumInfo_symm ms (reach_symm h)
  have hv : asV n s.v = sumRhs ms := funext fun i => (reach_holds h).2 i
  constructor
  · intro hk
    have hr := (Chol.c22_rank_full_iff n (mirror n s.C)).2 hk
    obtain ⟨x, e1, e2, e3⟩ := Chol.c21_backsub n (mirror n s.C) s.v u w hr
    rw [hs, hv] at e2 e3
    exact ⟨x, e1, e2, e3⟩
  · intro hk
    rw [← Chol.c22_rank_full_iff] at hk
    refine Chol.c22_backsub_needs_full_rank n (mirror n s.C) s.v u w (lt_of_le_of_ne ?_ hk)
    rcases Chol.compute_spec n (mirror n s.C) with ⟨h1, -⟩ | ⟨h1, -⟩ <;> omega

/-- **C24** two objects whose histories denote the same measurements in any order agree: same information
matrix, same vector, and `compute()` gives the same `get_mu()` (or divides by zero in both). -/
theorem c24_order_independent {n : Nat} {s s' : St K} {ms ms' : List (Meas n K)} (h : Reach n s ms)
    (h' : Reach n s' ms') (hp : ms.Perm ms') (u w u' w' : Vec K) :
    asM n n (compute n u w s).C = asM n n (compute n u' w' s').C ∧
    asV n (compute n u w s).v = asV n (compute n u' w' s').v ∧
    (compute n u w s).mu.map (asV n) = (compute n u' w' s').mu.map (asV n) := by
  have hI : sumInfo ms = sumInfo ms' := (hp.map _).sum_eq
  have hR : sumRhs ms = sumRhs ms' := (hp.map _).sum_eq
  have hC : asM n n (mirror n s.C) = asM n n (mirror n s'.C) := by rw [mirror_eq h, mirror_eq h', hI]
  have hdet : (∀ k, k ≤ n → (asM k k (lowerSym (mirror n s.C))).det ≠ 0) ↔
      (∀ k, k ≤ n → (asM k k (lowerSym (mirror n s'.C))).det ≠ 0) := by
    have e : ∀ k, k ≤ n → asM k k (lowerSym (mirror n s.C)) = asM k k (lowerSym (mirror n s'.C)) := by
      intro k hk
      rw [asM_eq_iff] at hC ⊢
      intro i j hi hj
      unfold lowerSym
      split
      · exact hC i j (by omega) (by omega)
      · exact hC j i (by omega) (by omega)
    constructor
    · intro q k hk; rw [← e k hk]; exact q k hk
    · intro q k hk; rw [e k hk]; exact q k hk
  refine ⟨hC, ?_, ?_⟩
  · show asV n s.v = asV n s'.v
    funext i
    rw [asV_apply, asV_apply, (reach_holds h).2 i, (reach_holds h').2 i, hR]
  · obtain ⟨a1, a2⟩ := compute_mu h u w
    obtain ⟨b1, b2⟩ := compute_mu h' u' w'
    by_cases hk : ∀ k, k ≤ n → (asM k k (lowerSym (mirror n s.C))).det ≠ 0
    · obtain ⟨x, ex, sx, ux⟩ := a1 hk
      obtain ⟨y, ey, sy, uy⟩ := b1 (hdet.1 hk)
      rw [ex, ey, Option.map_some, Option.map_some, ux (asV n y) (by rw [hI, hR]; exact sy)]
    · rw [a2 hk, b2 (fun q => hk (hdet.2 q))]

/-- **C24** `a += b` then `compute()` is the same as having made all calls on one object. -/
theorem c24_plusEq {n : Nat} {a b s : St K} {ms ms' : List (Meas n K)} (ha : Reach n a ms) (hb : Reach n b ms')
    (hs : Reach n s (ms ++ ms')) (u w u' w' : Vec K) :
    asM n n (compute n u w (plusEq n b a)).C = asM n n (compute n u' w' s).C ∧
    asV n (compute n u w (plusEq n b a)).v = asV n (compute n u' w' s).v ∧
    (compute n u w (plusEq n b a)).mu.map (asV n) = (compute n u' w' s).mu.map (asV n) :=
  c24_order_independent (Reach.plusEq ha hb) hs (List.Perm.refl _) u w u' w'

/-- **C24** `clear()` forgets everything: whatever the state, matrix and vector are those of a new object. -/
theorem c24_clear (n : Nat) (s : St K) (C0 : Mat K) (v0 : Vec K) :
    asM n n (clear n s).C = 0 ∧ asV n (clear n s).v = 0 ∧
    asM n n (clear n s).C = asM n n (construct n C0 v0).C ∧
    asV n (clear n s).v = asV n (construct n C0 v0).v := by
  have hz : ∀ C : Mat K, asM n n (Ops.zerosM n n C) = 0 := by
    intro C; ext i j
    rw [asM_apply, Ops.zerosM, evalM_apply, if_pos ⟨i.2, j.2⟩]; rfl
  have hv : ∀ v : Vec K, asV n (Ops.zerosV n v) = 0 := by
    intro v; funext i
    rw [asV_apply, Ops.zerosV, forN_vecset, if_pos i.2]; rfl
  exact ⟨hz _, hv _, (hz _).trans (hz _).symm, (hv _).trans (hv _).symm⟩

/-! ## C25 -/

/-- same upper triangle (all that `compute()` uses, wls.h:213-215) and same vector -/
def UpperEq (n : Nat) (s s' : St K) : Prop :=
  (∀ i j, i ≤ j → j < n → s.C i j = s'.C i j) ∧ (∀ i, i < n → s.v i = s'.v i)

/-- `UpperEq` states give the same result of `compute()`. -/
theorem c25_upper_is_all (n : Nat) (s s' : St K) (h : UpperEq n s s') (u w : Vec K) :
    asM n n (compute n u w s).C = asM n n (compute n u w s').C ∧
    asV n (compute n u w s).v = asV n (compute n u w s').v := by
  constructor
  · show asM n n (mirror n s.C) = asM n n (mirror n s'.C)
    rw [asM_eq_iff]
    intro i j hi hj
    rw [mirror_apply, mirror_apply]
    by_cases hij : i < n ∧ j < i
    · rw [if_pos hij, if_pos hij, h.1 j i (by omega) hi]
    · rw [if_neg hij, if_neg hij, h.1 i j (by omega) hj]
  · show asV n s.v = asV n s'.v
    rw [asV_eq_iff]; exact h.2

/-- a block placed at `idx` in an otherwise zero vector/row -/
def padVec (k idx : Nat) (J : Vec K) : Vec K := fun c => if idx ≤ c ∧ c < idx + k then J (c - idx) else 0
/-- a block placed at column `idx` in an otherwise zero matrix -/
def padMat (S idx : Nat) (J : Mat K) : Mat K := fun r => padVec S idx (J r)

theorem asM_padMat (N S n idx : Nat) (J : Mat K) : asM N n (padMat S idx J) = padM N S n idx J := rfl

/-- **C25** `add_sparse_mJ(m, J1, idx, w)` = `add_mJ(m, J, w)` with `J` the zero-padded Jacobian. -/
theorem c25_sparse (n k : Nat) (m : K) (J1 : Vec K) (idx : Nat) (w : K) (s : St K) (h : idx + k ≤ n) :
    UpperEq n (addSparse k m J1 idx w s) (addmJ n m (padVec k idx J1) w s) := by
  obtain ⟨a1, a2, -⟩ := addUpper_spec k idx m J1 w s
  obtain ⟨b1, b2, -⟩ := addUpper_spec n 0 m (padVec k idx J1) w s
  refine ⟨fun i j hij hj => ?_, fun i hi => ?_⟩
  · rw [addSparse, addmJ, a2, b2, if_pos (c := 0 ≤ i ∧ _) (by omega), padVec, padVec]
    rw [Nat.sub_zero, Nat.sub_zero]
    by_cases hc : idx ≤ i ∧ i ≤ j ∧ j < idx + k
    · rw [if_pos hc, if_pos (by omega), if_pos (by omega)]
    · rw [if_neg hc]
      by_cases hi : idx ≤ i ∧ i < idx + k
      · rw [if_neg (c := idx ≤ j ∧ j < idx + k) (by omega), mul_zero, add_zero]
      · rw [if_neg hi, mul_zero, zero_mul, add_zero]
  · rw [addSparse, addmJ, a1, b1, if_pos (c := 0 ≤ i ∧ _) (by omega), padVec]
    rw [Nat.sub_zero]
    by_cases hc : idx ≤ i ∧ i < idx + k
    · rw [if_pos hc, if_pos hc]
    · rw [if_neg hc, if_neg hc, mul_zero, mul_zero, add_zero]

theorem addmJrows_C (n N : Nat) (m : Vec K) (J W : Mat K) (ju : Nat → Mat K) (s : St K) (i j : Fin n) :
    (addmJrows n N m J W ju s).C i j = s.C i j + ((asM N n J).transpose * asM N N W * asM N n J) i j := by
  have := pad_info N n n n 0 0 J J W (ju 0) (ju 1) (by omega) (by omega) s.C i j
  rw [padM_full] at this
  exact this

theorem addmJrows_v (n N : Nat) (m : Vec K) (J W : Mat K) (ju : Nat → Mat K) (s : St K) (i : Fin n) :
    (addmJrows n N m J W ju s).v i = s.v i + ((asM N n J).transpose * asM N N W).mulVec (asV N m) i := by
  have := pad_rhs N n n 0 m J W (ju 0) (ju 2 0) (by omega) s.v i
  rw [padM_full] at this
  exact this

/-- **C25** `add_mJ(m, J, invcov)` with `J : n × N` is `add_mJ_rows` with the transposed Jacobian. -/
theorem c25_cov_is_rows (n N : Nat) (m : Vec K) (J W : Mat K) (ju ju' : Nat → Mat K) (s : St K) :
    asM n n (addmJcov n N m J W ju s).C = asM n n (addmJrows n N m (Mat.T J) W ju' s).C ∧
    asV n (addmJcov n N m J W ju s).v = asV n (addmJrows n N m (Mat.T J) W ju' s).v := by
  constructor
  · ext i j
    rw [asM_apply, asM_apply, addmJrows_C, ← addmJrows_C n N m (Mat.T J) W ju s]; rfl
  · funext i
    rw [asV_apply, asV_apply, addmJrows_v, ← addmJrows_v n N m (Mat.T J) W ju s]; rfl

/-- **C25** `add_sparse_mJ_rows(m, J1, i1, W)` is `add_mJ_rows` with the padded Jacobian (whole matrix). -/
theorem c25_sparse_rows (n N S1 : Nat) (m : Vec K) (J1 : Mat K) (idx : Nat) (W : Mat K) (ju ju' : Nat → Mat K)
    (s : St K) (h : idx + S1 ≤ n) :
    asM n n (addSparseRows N S1 m J1 idx W ju s).C = asM n n (addmJrows n N m (padMat S1 idx J1) W ju' s).C ∧
    asV n (addSparseRows N S1 m J1 idx W ju s).v = asV n (addmJrows n N m (padMat S1 idx J1) W ju' s).v := by
  constructor
  · ext i j
    rw [asM_apply, asM_apply, addmJrows_C, asM_padMat]
    exact pad_info N n S1 S1 idx idx J1 J1 W (ju 0) (ju 1) h h s.C i j
  · funext i
    rw [asV_apply, asV_apply, addmJrows_v, asM_padMat]
    exact pad_rhs N n S1 idx m J1 W (ju 0) (ju 2 0) h s.v i

/-- **C25** the two-block form is `add_mJ_rows` with both blocks in place (`W` symmetric; the blocks may even
overlap, then they add). -/
theorem c25_sparse_rows2 (n N S1 S2 : Nat) (m : Vec K) (J1 : Mat K) (i1 : Nat) (J2 : Mat K) (i2 : Nat)
    (W : Mat K) (ju ju' : Nat → Mat K) (s : St K) (h1 : i1 + S1 ≤ n) (h2 : i2 + S2 ≤ n)
    (hW : (asM N N W).transpose = asM N N W) :
    UpperEq n (addSparseRows2 N S1 S2 m J1 i1 J2 i2 W ju s)
      (addmJrows n N m (fun r c => padMat S1 i1 J1 r c + padMat S2 i2 J2 r c) W ju' s) ∧
    (∀ i j, i < n → j < n → (addSparseRows2 N S1 S2 m J1 i1 J2 i2 W ju s).C i j =
      (addmJrows n N m (fun r c => padMat S1 i1 J1 r c + padMat S2 i2 J2 r c) W ju' s).C i j) := by
  set P := padM N S1 n i1 J1
  set Q := padM N S2 n i2 J2
  have hJ : asM N n (fun r c => padMat S1 i1 J1 r c + padMat S2 i2 J2 r c) = P + Q := rfl
  have hC : ∀ i j : Fin n, (addSparseRows2 N S1 S2 m J1 i1 J2 i2 W ju s).C i j =
      s.C i j + ((P + Q).transpose * asM N N W * (P + Q)) i j := by
    intro i j
    have hT : ∀ A : Mat K, plusEqM S2 S1 i2 i1 (Mat.T (Ops.mulMM S1 N S2
        (Ops.mulMM S1 N N (Mat.T J1) W (ju 0)) J2 (ju 2))) A i j =
        A i j + (Q.transpose * asM N N W * P) i j := by
      intro A
      have h' := pad_info N n S1 S2 i1 i2 J1 J2 W (ju 0) (ju 2) h1 h2 (Mat.T A) j i
      have e : (Q.transpose * asM N N W * P) i j = (P.transpose * asM N N W * Q) j i := by
        have : (P.transpose * asM N N W * Q).transpose = Q.transpose * asM N N W * P := by
          rw [Matrix.transpose_mul, Matrix.transpose_mul, hW, Matrix.transpose_transpose, Matrix.mul_assoc]
        rw [← this]; rfl
      rw [e, show A i j = Mat.T A j i from rfl, ← h', plusEqM_apply, plusEqM_apply]
      by_cases hc : (i2 ≤ (i:Nat) ∧ (i:Nat) < i2 + S2) ∧ (i1 ≤ (j:Nat) ∧ (j:Nat) < i1 + S1)
      · rw [if_pos hc, if_pos ⟨hc.2, hc.1⟩]; rfl
      · rw [if_neg hc, if_neg (fun h => hc ⟨h.2, h.1⟩)]; rfl
    show plusEqM S2 S1 i2 i1 _ (plusEqM S1 S2 i1 i2 _ (plusEqM S2 S2 i2 i2 _ (plusEqM S1 S1 i1 i1 _ s.C))) i j = _
    rw [hT, pad_info _ _ _ _ _ _ _ _ _ _ _ h1 h2, pad_info _ _ _ _ _ _ _ _ _ _ _ h2 h2,
      pad_info _ _ _ _ _ _ _ _ _ _ _ h1 h1]
    rw [Matrix.transpose_add, Matrix.add_mul, Matrix.add_mul, Matrix.mul_add, Matrix.mul_add]
    simp only [Matrix.add_apply]
    ring
  have hall : ∀ i j, i < n → j < n → (addSparseRows2 N S1 S2 m J1 i1 J2 i2 W ju s).C i j =
      (addmJrows n N m (fun r c => padMat S1 i1 J1 r c + padMat S2 i2 J2 r c) W ju' s).C i j := by
    intro i j hi hj
    have a := hC ⟨i, hi⟩ ⟨j, hj⟩
    have b := addmJrows_C n N m (fun r c => padMat S1 i1 J1 r c + padMat S2 i2 J2 r c) W ju' s ⟨i, hi⟩ ⟨j, hj⟩
    rw [hJ] at b
    exact a.trans b.symm
  refine ⟨⟨fun i j hij hj => hall i j (by omega) hj, fun i hi => ?_⟩, hall⟩
  have b := addmJrows_v n N m (fun r c => padMat S1 i1 J1 r c + padMat S2 i2 J2 r c) W ju' s ⟨i, hi⟩
  rw [hJ] at b
  refine Eq.trans ?_ b.symm
  show plusEqV S2 i2 _ (plusEqV S1 i1 _ s.v) ((⟨i, hi⟩ : Fin n) : Nat) = _
  rw [pad_rhs _ _ _ _ _ _ _ _ _ h2, pad_rhs _ _ _ _ _ _ _ _ _ h1]
  rw [Matrix.transpose_add, Matrix.add_mul, Matrix.add_mulVec]
  simp only [Pi.add_apply]
  ring

/-- **C25** `add_mJ(m, J, w)` on several rows is `add_mJ_rows` with inverse covariance `w·I`. -/
theorem c25_mJs_is_rows (n S : Nat) (m : Vec K) (J : Mat K) (w : K) (ju : Nat → Mat K) (s : St K) :
    UpperEq n (addmJs n S m J w s) (addmJrows n S m J (fun r c => if r = c then w else 0) ju s) := by
  have hW : asM S S (fun r c => if r = c then w else 0) = Matrix.diagonal fun _ => w := by
    ext i j
    rw [asM_apply, Matrix.diagonal_apply]
    by_cases e : i = j
    · rw [if_pos e, if_pos (congrArg _ e)]
    · rw [if_neg e, if_neg (fun h => e (Fin.ext h))]
  obtain ⟨a1, a2⟩ := addmJs_spec n S m J w s
  refine ⟨fun i j hij hj => ?_, fun i hi => ?_⟩
  · have b := addmJrows_C n S m J (fun r c => if r = c then w else 0) ju s ⟨i, by omega⟩ ⟨j, hj⟩
    rw [hW, ← info_mk n S (asV S m), info_mJs] at b
    exact (a1 ⟨i, by omega⟩ ⟨j, hj⟩ hij).trans b.symm
  · have b := addmJrows_v n S m J (fun r c => if r = c then w else 0) ju s ⟨i, hi⟩
    rw [hW, ← rhs_mk n S (asV S m), rhs_mJs] at b
    exact (a2 ⟨i, hi⟩).trans b.symm

/-- **C25** `add_prior(val)` is `add_prior` of a constant vector, and `add_prior(v)` is `add_prior` of the
diagonal matrix of `v`. -/
theorem c25_priors (n : Nat) (val : K) (p : Vec K) (s : St K) :
    addPriorS n val s = addPriorV n (fun _ => val) s ∧
    asM n n (addPriorV n p s).C = asM n n (addPriorM n (fun r c => if r = c then p r else 0) s).C ∧
    (addPriorV n p s).v = s.v ∧ (addPriorM n (fun r c => if r = c then p r else 0) s).v = s.v := by
  refine ⟨rfl, ?_, rfl, rfl⟩
  rw [asM_eq_iff]
  intro i j hi hj
  show forN n (fun i C => Mat.set C i i (C i i + p i)) s.C i j = plusEqM n n 0 0 _ s.C i j
  rw [forN_diagupd n (fun i x => x + p i), plusEqM_apply,
    if_pos (c := (0 ≤ i ∧ i < 0 + n) ∧ 0 ≤ j ∧ j < 0 + n) (by omega)]
  by_cases e : i = j
  · subst e; simp [hi]
  · rw [if_neg (c := i = j ∧ i < n) (fun h => e h.1), if_neg (c := i - 0 = j - 0) (by omega), add_zero]

end field

section ordered
variable {K : Type _} [Field K] [LinearOrder K] [IsStrictOrderedRing K]

/-- **C23** for any history of calls with positive definite accumulated information, `compute()` succeeds,
`get_mu()` solves the weighted normal equations, and it is the unique minimiser of the weighted sum of squares. -/
theorem c23_minimiser {n : Nat} {s : St K} {ms : List (Meas n K)} (h : Reach n s ms)
    (hpd : SymPosDef (ms.map fun z => z.J.transpose * z.W * z.J).sum) (u w : Vec K) :
    ∃ mu, (compute n u w s).mu = some mu ∧
      Matrix.mulVec (ms.map fun z : Meas n K => z.J.transpose * z.W * z.J).sum (asV n mu) =
        (ms.map fun z => (z.J.transpose * z.W).mulVec z.m).sum ∧
      ∀ x : Fin n → K, x ≠ asV n mu →
        (ms.map fun z => dotProduct (z.m - z.J.mulVec (asV n mu)) (z.W.mulVec (z.m - z.J.mulVec (asV n mu)))).sum <
        (ms.map fun z => dotProduct (z.m - z.J.mulVec x) (z.W.mulVec (z.m - z.J.mulVec x))).sum := by
  have hm := mirror_eq h
  have hs : asM n n (lowerSym (mirror n s.C)) = sumInfo ms := by
    rw [lowerSym_of_symm, hm]; rw [hm]; exact sumInfo_symm ms (reach_symm h)
  have hr := (Chol.c20_posdef_full_rank n (mirror n s.C) (by rw [hs]; exact hpd)).1
  obtain ⟨x, e1, e2, -⟩ := (compute_mu h u w).1 ((Chol.c22_rank_full_iff n (mirror n s.C)).1 hr)
  refine ⟨x, e1, e2, fun y hy => ?_⟩
  have hsymm := reach_symm h
  show totalCost ms (asV n x) < totalCost ms y
  rw [totalCost_expand ms hsymm y, totalCost_expand ms hsymm (asV n x), ← e2]
  set H := sumInfo ms
  set a := asV n x
  have hd : y - a ≠ 0 := sub_ne_zero.2 hy
  have hpos := hpd.2 (y - a) hd
  have hHs : H.transpose = H := sumInfo_symm ms hsymm
  have hsw : dotProduct y (H.mulVec a) = dotProduct a (H.mulVec y) := by
    rw [Matrix.dotProduct_mulVec, ← Matrix.mulVec_transpose, hHs, dotProduct_comm]
  change 0 < dotProduct (y - a) (H.mulVec (y - a)) at hpos
  rw [Matrix.mulVec_sub, dotProduct_sub, sub_dotProduct, sub_dotProduct, ← hsw] at hpos
  linarith

/-- **C23** concrete history: two parameters, a prior, a dense and a sparse measurement; the hypotheses of
`c23_minimiser` hold (information `[[2,1],[1,3]]`). -/
example : ∃ (s : St ℚ) (ms : List (Meas 2 ℚ)), Reach 2 s ms ∧ ms.length = 3 ∧
    SymPosDef (ms.map fun z => z.J.transpose * z.W * z.J).sum := by
  refine ⟨_, _, .sparse 1 5 (fun _ => 1) 1 1 (by omega)
    (.mJ 3 (fun _ => 1) 1 (.priorS 1 (.construct (fun _ _ => 7) (fun _ => 7)))), rfl, ?_⟩
  have e : (sumInfo ([] ++ [Meas.prior (Matrix.diagonal fun _ => (1:ℚ))] ++
      [Meas.scalar 3 (asV 2 fun _ => (1:ℚ)) 1] ++ [Meas.scalar 5 (padV 1 2 1 fun _ => (1:ℚ)) 1])) =
      !![2, 1; 1, 3] := by
    rw [sumInfo_append, sumInfo_append, sumInfo_append, sumInfo_singleton, sumInfo_singleton,
      sumInfo_singleton, info_prior]
    ext i j
    simp only [Matrix.add_apply, info_scalar]
    fin_cases i <;> fin_cases j <;> norm_num [sumInfo, padV, Matrix.diagonal_apply]
  show SymPosDef (sumInfo _)
  rw [e]
  constructor
  · ext i j; fin_cases i <;> fin_cases j <;> rfl
  · intro x hx
    have hq : dotProduct x ((!![2, 1; 1, 3] : Matrix (Fin 2) (Fin 2) ℚ).mulVec x) =
        x 0 ^ 2 + (x 0 + x 1) ^ 2 + 2 * x 1 ^ 2 := by
      simp [Matrix.mulVec, dotProduct, Fin.sum_univ_two]; ring
    rw [hq]
    by_contra hle
    have h0 : x 0 = 0 := by
      have : x 0 ^ 2 ≤ 0 := by nlinarith [sq_nonneg (x 0 + x 1), sq_nonneg (x 1)]
      exact pow_eq_zero_iff (two_ne_zero) |>.1 (le_antisymm this (sq_nonneg _))
    have h1 : x 1 = 0 := by
      have : x 1 ^ 2 ≤ 0 := by nlinarith [sq_nonneg (x 0 + x 1), sq_nonneg (x 0)]
      exact pow_eq_zero_iff (two_ne_zero) |>.1 (le_antisymm this (sq_nonneg _))
    apply hx
    funext i; fin_cases i
    · exact h0
    · exact h1

end ordered
end TooN.WLS
