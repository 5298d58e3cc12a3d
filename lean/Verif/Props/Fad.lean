import Verif.Spec.Fad
import Verif.Spec.Linear
import Verif.Props.SE3
import Verif.Props.SE2
import Verif.Props.SO3
import Mathlib.Algebra.MvPolynomial.PDeriv
import Mathlib.Analysis.Calculus.FDeriv.Mul
import Mathlib.Analysis.Calculus.FDeriv.Linear
import Mathlib.Tactic
/-!
# functions/fadbad.h (C58)
-/
set_option linter.unusedSectionVars false
namespace TooN.Fad
open Matrix TooN.Lie
noncomputable section

variable {D : Nat}

@[simp] theorem val_mk (c : ℝ) (g : Fin D → ℝ) : val (mk c g) = c := by simp [val, mk]
@[simp] theorem deriv_mk (c : ℝ) (g : Fin D → ℝ) : deriv (mk c g) = g := by funext d; simp [deriv, mk]
@[simp] theorem val_const (c : ℝ) : val (const c : F D) = c := by simp [val, const]
@[simp] theorem deriv_const (c : ℝ) : deriv (const c : F D) = 0 := by funext d; simp [deriv, const]
@[simp] theorem val_add (x y : F D) : val (x + y) = val x + val y := by simp [val]
@[simp] theorem deriv_add (x y : F D) : deriv (x + y) = deriv x + deriv y := by funext d; simp [deriv]
@[simp] theorem val_sub (x y : F D) : val (x - y) = val x - val y := by simp [val]
@[simp] theorem deriv_sub (x y : F D) : deriv (x - y) = deriv x - deriv y := by funext d; simp [deriv]
@[simp] theorem val_neg (x : F D) : val (-x) = -val x := by simp [val]
@[simp] theorem deriv_neg (x : F D) : deriv (-x) = -deriv x := by funext d; simp [deriv]
@[simp] theorem val_mul (x y : F D) : val (x * y) = val x * val y := by simp [val]
@[simp] theorem deriv_mul (x y : F D) : deriv (x * y) = val x • deriv y + val y • deriv x := by funext d; simp [deriv, val]
@[simp] theorem val_one : val (1 : F D) = 1 := by simp [val]
@[simp] theorem deriv_one : deriv (1 : F D) = 0 := by funext d; simp [deriv]
@[simp] theorem val_zero : val (0 : F D) = 0 := by simp [val]
@[simp] theorem deriv_zero : deriv (0 : F D) = 0 := by funext d; simp [deriv]
@[simp] theorem val_diff (x : F D) (d : Nat) : val (diff x d) = val x := by simp [diff]; rfl
@[simp] theorem deriv_diff (x : F D) (d : Nat) : deriv (diff x d) = fun k : Fin D => if (k : Nat) = d then 1 else 0 := by simp [diff]

theorem val_sum {ι : Type} (s : Finset ι) (f : ι → F D) : val (∑ i ∈ s, f i) = ∑ i ∈ s, val (f i) := by
  classical
  induction s using Finset.induction_on with
  | empty => simp
  | insert a s ha ih => rw [Finset.sum_insert ha, Finset.sum_insert ha, val_add, ih]
theorem deriv_sum {ι : Type} (s : Finset ι) (f : ι → F D) : deriv (∑ i ∈ s, f i) = ∑ i ∈ s, deriv (f i) := by
  classical
  induction s using Finset.induction_on with
  | empty => simp
  | insert a s ha ih => rw [Finset.sum_insert ha, Finset.sum_insert ha, deriv_add, ih]

theorem ext' {x y : F D} (h1 : val x = val y) (h2 : deriv x = deriv y) : x = y := TrivSqZeroExt.ext h1 h2

/-! ### Arithmetic on forward-mode numbers represents arithmetic on functions -/

theorem form_add (g h : Fin D → ℝ) : form (g + h) = form g + form h := by
  unfold form; simp [add_smul, Finset.sum_add_distrib]
theorem form_smul (c : ℝ) (g : Fin D → ℝ) : form (c • g) = c • form g := by
  unfold form; simp [Finset.smul_sum, mul_smul]
theorem form_zero : form (0 : Fin D → ℝ) = 0 := by unfold form; simp
theorem form_apply (g e : Fin D → ℝ) : form g e = ∑ d, g d * e d := by
  unfold form; simp

theorem form_neg (g : Fin D → ℝ) : form (-g) = -form g := by
  ext e
  rw [_root_.neg_apply, form_apply, form_apply, ← Finset.sum_neg_distrib]
  exact Finset.sum_congr rfl fun d _ => by rw [Pi.neg_apply, neg_mul]

variable {p : Fin D → ℝ}

theorem Represents.const (c : ℝ) : Represents (const c : F D) (fun _ => c) p :=
  ⟨val_const c, by rw [deriv_const, form_zero]; exact hasFDerivAt_const c p⟩
theorem Represents.add {x y : F D} {f g} (h : Represents x f p) (k : Represents y g p) : Represents (x + y) (fun e => f e + g e) p :=
  ⟨by rw [val_add, h.1, k.1], by rw [deriv_add, form_add]; exact h.2.add k.2⟩
theorem Represents.neg {x : F D} {f} (h : Represents x f p) : Represents (-x) (fun e => -f e) p :=
  ⟨by rw [val_neg, h.1], by rw [deriv_neg, form_neg]; exact h.2.neg⟩
theorem Represents.sub {x y : F D} {f g} (h : Represents x f p) (k : Represents y g p) : Represents (x - y) (fun e => f e - g e) p := by
  have := h.add k.neg
  simp only [← sub_eq_add_neg] at this
  exact this
theorem Represents.mul {x y : F D} {f g} (h : Represents x f p) (k : Represents y g p) : Represents (x * y) (fun e => f e * g e) p :=
  ⟨by rw [val_mul, h.1, k.1], by
    rw [deriv_mul, form_add, form_smul, form_smul, h.1, k.1]; exact h.2.mul k.2⟩
theorem Represents.sin {x : F D} {f} (h : Represents x f p) : Represents (fsin x) (fun e => Real.sin (f e)) p := by
  have hv : x.fst = f p := h.1
  exact ⟨by unfold fsin; rw [val_mk, hv], by
    unfold fsin; rw [deriv_mk, form_smul, hv]; exact h.2.sin⟩
theorem Represents.cos {x : F D} {f} (h : Represents x f p) : Represents (fcos x) (fun e => Real.cos (f e)) p := by
  have hv : x.fst = f p := h.1
  exact ⟨by unfold fcos; rw [val_mk, hv], by
    unfold fcos; rw [deriv_mk, form_smul, hv]; exact h.2.cos⟩
theorem Represents.abs {x : F D} {f} (h : Represents x f p) (h0 : f p ≠ 0) : Represents (fabs x) (fun e => |f e|) p := by
  have hv : val x = f p := h.1
  unfold fabs
  split_ifs with h1
  · have hneg : f p < 0 := by rwa [hv] at h1
    refine ⟨by rw [val_neg, hv]; exact (abs_of_neg hneg).symm, h.neg.2.congr_of_eventuallyEq ?_⟩
    filter_upwards [h.2.continuousAt.eventually (gt_mem_nhds hneg)] with e he
    exact abs_of_neg he
  · have hpos : 0 < f p := lt_of_le_of_ne (by rw [hv] at h1; linarith) (Ne.symm h0)
    refine ⟨by rw [hv]; exact (abs_of_pos hpos).symm, h.2.congr_of_eventuallyEq ?_⟩
    filter_upwards [h.2.continuousAt.eventually (lt_mem_nhds hpos)] with e he
    exact abs_of_pos he
theorem Represents.sum {n : Nat} {x : Fin n → F D} {f : Fin n → (Fin D → ℝ) → ℝ} (h : ∀ i, Represents (x i) (f i) p) :
    Represents (∑ i, x i) (fun e => ∑ i, f i e) p := by
  refine ⟨by rw [val_sum]; exact Finset.sum_congr rfl fun i _ => (h i).1, ?_⟩
  have e : form (deriv (∑ i, x i)) = ∑ i, form (deriv (x i)) := by
    rw [deriv_sum]
    ext e
    simp only [form_apply, Finset.sum_apply, _root_.sum_apply, Finset.sum_mul]
    rw [Finset.sum_comm]
  rw [e]
  exact HasFDerivAt.fun_sum fun i _ => (h i).2

/-- **C58** the numbers returned by any expression built from `+`, `-`, `*`, `sin`, `cos`, constants represent that expression (and `abs`
away from zero). -/
theorem c58_arithmetic {x y : F D} {f g : (Fin D → ℝ) → ℝ} (h : Represents x f p) (k : Represents y g p) (c : ℝ) :
    Represents (const c : F D) (fun _ => c) p ∧ Represents (x + y) (fun e => f e + g e) p ∧ Represents (x - y) (fun e => f e - g e) p ∧
    Represents (-x) (fun e => -f e) p ∧ Represents (x * y) (fun e => f e * g e) p ∧
    Represents (fsin x) (fun e => Real.sin (f e)) p ∧ Represents (fcos x) (fun e => Real.cos (f e)) p ∧
    (f p ≠ 0 → Represents (fabs x) (fun e => |f e|) p) :=
  ⟨Represents.const c, h.add k, h.sub k, h.neg, h.mul k, h.sin, h.cos, h.abs⟩

/-! ### Vectors -/

theorem makeFadVector_apply (n : Nat) (v : Vec ℝ) (start i : Nat) (hi : i < n) :
    makeFadVector D n v start i = if start + i < D then diff (const (v i)) (start + i) else const (v i) := by
  have key : ∀ k, (∀ i, i < k → (forN k (fun i result => Vec.set result i (diff (result i) (start + i))) (fun i => const (v i)) : Nat → F D) i
      = diff (const (v i)) (start + i)) ∧
      (∀ i, k ≤ i → (forN k (fun i result => Vec.set result i (diff (result i) (start + i))) (fun i => const (v i)) : Nat → F D) i = const (v i)) := by
    intro k
    induction k with
    | zero => exact ⟨by omega, fun i _ => rfl⟩
    | succ k ih =>
      rw [forN_succ]
      constructor
      · intro i hi
        rcases Nat.lt_succ_iff_lt_or_eq.mp hi with h | h
        · rw [Vec.set_ne _ _ _ _ (by omega)]; exact ih.1 i h
        · subst h; rw [Vec.set_self, ih.2 i (le_refl _)]
      · intro i hi
        rw [Vec.set_ne _ _ _ _ (by omega)]; exact ih.2 i (by omega)
  unfold makeFadVector
  split_ifs with h
  · exact (key _).1 i (by omega)
  · exact (key _).2 i (by omega)

theorem rep_var (c : ℝ) (d : Fin D) (hp : p d = c) : Represents (diff (const c) d : F D) (fun e => e d) p := by
  refine ⟨by rw [val_diff, val_const]; exact hp.symm, ?_⟩
  have : form (deriv (diff (Fad.const c) d : F D)) = ContinuousLinearMap.proj (R := ℝ) (φ := fun _ : Fin D => ℝ) d := by
    ext e
    rw [form_apply, deriv_diff]
    simp [Fin.val_inj]
  rw [this]
  exact hasFDerivAt_apply d p

/-- **C58** `make_fad_vector(v, start)`: element `i` is the independent variable number `start + i`, at the value `v[i]`
(a constant if there is no such variable). -/
theorem c58_make_fad_vector (n : Nat) (v : Vec ℝ) (start i : Nat) (hi : i < n) :
    (∀ h : start + i < D, p ⟨start + i, h⟩ = v i → Represents (makeFadVector D n v start i) (fun e => e ⟨start + i, h⟩) p) ∧
    (D ≤ start + i → Represents (makeFadVector D n v start i) (fun _ => v i) p) := by
  constructor
  · intro h hp
    rw [makeFadVector_apply n v start i hi, if_pos h]
    exact rep_var (v i) ⟨start + i, h⟩ hp
  · intro h
    rw [makeFadVector_apply n v start i hi, if_neg (by omega)]
    exact Represents.const _

theorem getDerivative_apply (n : Nat) (v : Nat → F D) (dim : Fin D) (r0 : Vec ℝ) (i : Nat) (hi : i < n) :
    getDerivative n v dim r0 i = deriv (v i) dim := by
  have key : ∀ k, ∀ i, i < k → forN k (fun i r => Vec.set r i (deriv (v i) dim)) r0 i = deriv (v i) dim := by
    intro k
    induction k with
    | zero => intro i h; omega
    | succ k ih =>
      intro i hi
      rw [forN_succ]
      rcases Nat.lt_succ_iff_lt_or_eq.mp hi with h | h
      · rw [Vec.set_ne _ _ _ _ (by omega)]; exact ih i h
      · subst h; rw [Vec.set_self]
  exact key n i hi

/-- **C58** `get_value`, `get_derivative`, `get_jacobian` read the values and the derivatives. -/
theorem c58_get (n : Nat) (v : Nat → F D) (init : Mat ℝ) (r0 : Vec ℝ) (i : Nat) (d : Fin D) (hi : i < n) :
    getValue n v i = val (v i) ∧ getDerivative n v d r0 i = deriv (v i) d ∧ getJacobian n v init r0 i d = deriv (v i) d := by
  refine ⟨?_, getDerivative_apply n v d r0 i hi, ?_⟩
  · have key : ∀ k, ∀ i, i < k → forN k (fun i r => Vec.set r i (val (v i))) (fun _ => (0 : ℝ)) i = val (v i) := by
      intro k
      induction k with
      | zero => intro i h; omega
      | succ k ih =>
        intro i hi
        rw [forN_succ]
        rcases Nat.lt_succ_iff_lt_or_eq.mp hi with h | h
        · rw [Vec.set_ne _ _ _ _ (by omega)]; exact ih i h
        · subst h; rw [Vec.set_self]
    exact key n i hi
  · have key : ∀ k, k ≤ D → ∀ c : Fin D, (c : Nat) < k → forN k (fun i result => fun r c =>
        if c = i ∧ r < n then (if h : i < D then getDerivative n v ⟨i, h⟩ r0 r else result r c) else result r c) init i c = deriv (v i) c := by
      intro k
      induction k with
      | zero => intro _ c h; omega
      | succ k ih =>
        intro hk c hc
        rw [forN_succ]
        rcases Nat.lt_succ_iff_lt_or_eq.mp hc with h | h
        · rw [if_neg (by omega)]; exact ih (by omega) c h
        · rw [if_pos ⟨h, hi⟩, dif_pos (by omega), getDerivative_apply n v _ r0 i hi]
          congr 1
          exact Fin.ext h.symm
    exact key D (le_refl _) d d.2

/-- **C58** `get_derivative` of a matrix. -/
theorem c58_get_matrix (R C : Nat) (v : Nat → Nat → F D) (d : Fin D) (r0 : Mat ℝ) (i j : Nat) (hi : i < R) (hj : j < C) :
    getDerivativeM R C v d r0 i j = deriv (v i j) d := by
  have inner : ∀ (r k : Nat) (M : Mat ℝ), (∀ j, j < k → forN k (fun c result => Mat.set result r c (deriv (v r c) d)) M r j = deriv (v r j) d) ∧
      (∀ i j, i ≠ r → forN k (fun c result => Mat.set result r c (deriv (v r c) d)) M i j = M i j) := by
    intro r k M
    induction k with
    | zero => exact ⟨by omega, fun _ _ _ => rfl⟩
    | succ k ih =>
      rw [forN_succ]
      constructor
      · intro j hj
        rcases Nat.lt_succ_iff_lt_or_eq.mp hj with h | h
        · rw [Mat.set_ne _ _ _ _ _ _ (by omega)]; exact ih.1 j h
        · subst h; rw [Mat.set_self]
      · intro i j hi
        rw [Mat.set_ne _ _ _ _ _ _ (by omega)]; exact ih.2 i j hi
  have key : ∀ k, ∀ i, i < k → forN k (fun r result => forN C (fun c result => Mat.set result r c (deriv (v r c) d)) result) r0 i j
      = deriv (v i j) d := by
    intro k
    induction k with
    | zero => intro i h; omega
    | succ k ih =>
      intro i hi
      rw [forN_succ]
      rcases Nat.lt_succ_iff_lt_or_eq.mp hi with h | h
      · rw [(inner k C _).2 i j (by omega)]; exact ih i h
      · subst h; exact (inner i C _).1 j hj
  exact key R i hi

/-- **C58** the Jacobian of every polynomial map `q`, evaluated on `make_fad_vector(x)`, is the matrix of partial derivatives. -/
theorem c58_jacobian (n m : Nat) (x : Vec ℝ) (q : Nat → MvPolynomial (Fin n) ℝ) (init : Mat ℝ) (r0 : Vec ℝ) (i : Nat) (hi : i < m)
    (j : Fin n) :
    let y : Nat → F n := fun i => MvPolynomial.eval₂ (TrivSqZeroExt.inlHom ℝ (Fin n → ℝ)) (fun j : Fin n => makeFadVector n n x 0 j) (q i)
    getValue m y i = MvPolynomial.eval (asV n x) (q i) ∧
    getJacobian m y init r0 i j = MvPolynomial.eval (asV n x) (MvPolynomial.pderiv j (q i)) := by
  intro y
  obtain ⟨h1, -, h3⟩ := c58_get m y init r0 i j hi
  rw [h1, h3]
  clear h1 h3
  have key : ∀ q : MvPolynomial (Fin n) ℝ,
      val (MvPolynomial.eval₂ (TrivSqZeroExt.inlHom ℝ (Fin n → ℝ)) (fun j : Fin n => makeFadVector n n x 0 j) q : F n) =
        MvPolynomial.eval (asV n x) q ∧
      ∀ j, deriv (MvPolynomial.eval₂ (TrivSqZeroExt.inlHom ℝ (Fin n → ℝ)) (fun j : Fin n => makeFadVector n n x 0 j) q : F n) j =
        MvPolynomial.eval (asV n x) (MvPolynomial.pderiv j q) := by
    intro q
    induction q using MvPolynomial.induction_on with
    | C a =>
      rw [MvPolynomial.eval₂_C]
      refine ⟨?_, fun j => ?_⟩
      · rw [MvPolynomial.eval_C]; exact val_const a
      · rw [MvPolynomial.pderiv_C, map_zero]; exact congrFun (deriv_const (D := n) a) j
    | add p q hp hq =>
      rw [MvPolynomial.eval₂_add]
      refine ⟨by rw [val_add, hp.1, hq.1, map_add], fun j => ?_⟩
      rw [deriv_add, Pi.add_apply, hp.2, hq.2, map_add, map_add]
    | mul_X p i hp =>
      have hx : makeFadVector n n x 0 (i : Nat) = (diff (const (x i)) (0 + i) : F n) := by
        rw [makeFadVector_apply n x 0 i i.2, if_pos (by omega)]
      rw [MvPolynomial.eval₂_mul, MvPolynomial.eval₂_X, hx]
      refine ⟨by rw [val_mul, hp.1, val_diff, val_const, map_mul, MvPolynomial.eval_X]; rfl, fun j => ?_⟩
      rw [deriv_mul, deriv_diff, val_diff, val_const, Pi.add_apply, Pi.smul_apply, Pi.smul_apply, hp.1, hp.2, Derivation.leibniz,
        MvPolynomial.pderiv_X, map_add, smul_eq_mul, smul_eq_mul, smul_eq_mul, smul_eq_mul, map_mul, map_mul, MvPolynomial.eval_X]
      congr 2
      by_cases e : j = i
      · subst e; simp
      · rw [Pi.single_eq_of_ne (Ne.symm e) , if_neg (by rw [Nat.zero_add]; exact fun h => e (Fin.ext h)), map_zero]
  exact ⟨(key (q i)).1, (key (q i)).2 j⟩

/-! ### Groups -/

open scoped Matrix.Norms.Operator in
/-- a matrix with the value 1 and the generators as derivatives represents the exponential -/
theorem rep_exp {n k : Nat} (start : Nat) (h : start + k ≤ D) (G : Fin k → M n) (i j : Fin n) (x : F D)
    (hv : val x = (1 : M n) i j) (hd : ∀ d : Fin D, deriv x d = ∑ q : Fin k, if (d : Nat) = start + q then G q i j else 0) :
    Represents x (fun e => NormedSpace.exp (∑ q, vars k start h e q • G q) i j) 0 := by
  let L : (Fin D → ℝ) →L[ℝ] M n :=
    ∑ q : Fin k, (ContinuousLinearMap.proj (R := ℝ) (φ := fun _ : Fin D => ℝ) ⟨start + q, by omega⟩).smulRight (G q)
  have hL : ∀ e, L e = ∑ q, vars k start h e q • G q := by
    intro e
    simp only [L, _root_.sum_apply]
    rfl
  refine ⟨?_, ?_⟩
  · have : ∑ q, vars k start h (0 : Fin D → ℝ) q • G q = 0 := by
      rw [← hL, map_zero]
    beta_reduce
    rw [this, NormedSpace.exp_zero, hv]
  · have h1 : HasFDerivAt (NormedSpace.exp : M n → M n) (1 : M n →L[ℝ] M n) (L 0) := by
      rw [map_zero]; exact hasFDerivAt_exp_zero
    have h2 := h1.comp (0 : Fin D → ℝ) L.hasFDerivAt
    let E : M n →L[ℝ] ℝ := LinearMap.toContinuousLinearMap (Matrix.entryLinearMap ℝ ℝ i j)
    have h3 := E.hasFDerivAt.comp (0 : Fin D → ℝ) h2
    have e1 : (fun e => NormedSpace.exp (∑ q, vars k start h e q • G q) i j) = E ∘ (NormedSpace.exp ∘ L) := by
      funext e
      show _ = (NormedSpace.exp (L e)) i j
      rw [hL]
    rw [e1]
    refine h3.congr_fderiv ?_
    ext e
    rw [form_apply]
    show (L e) i j = _
    rw [hL]
    simp only [Matrix.sum_apply, Matrix.smul_apply, smul_eq_mul, hd, Finset.sum_mul]
    rw [Finset.sum_comm]
    apply Finset.sum_congr rfl
    intro q _
    rw [Finset.sum_eq_single (⟨start + q, by omega⟩ : Fin D)]
    · simp [vars, mul_comm]
    · intro b _ hb
      rw [if_neg (fun e => hb (Fin.ext e)), zero_mul]
    · intro hb; exact absurd (Finset.mem_univ _) hb

theorem so3_entry (start : Nat) (i j : Fin 3) : val (makeFadSO3 D start i j) = (1 : M 3) i j ∧
    ∀ d : Fin D, deriv (makeFadSO3 D start i j) d = ∑ q : Fin 3, if (d : Nat) = start + q then so3Gen q i j else 0 := by
  have e : makeFadSO3 D start = !![1, (diff 0 (start + 2)) * -1, diff 0 (start + 1); diff 0 (start + 2), 1, diff 0 start * -1;
      diff 0 (start + 1) * -1, diff 0 start, 1] := by
    unfold makeFadSO3
    ext i j <;> fin_cases i <;> fin_cases j <;> simp [setM, Matrix.one_apply]
  rw [e]
  constructor
  · fin_cases i <;> fin_cases j <;> simp
  · intro d
    fin_cases i <;> fin_cases j <;> simp [Fin.sum_univ_three, so3Gen] <;> split_ifs <;> simp

/-- **C58** `make_left_fad_so3(R, start)` is `exp(ε) R` at `ε = 0`, where `ε` are the variables `start`, `start+1`, `start+2`. -/
theorem c58_left_so3 (start : Nat) (h : start + 3 ≤ D) (R : M 3) (i j : Fin 3) :
    Represents (makeLeftFadSO3 D R start i j)
      (fun e => (NormedSpace.exp (skew (vars 3 start h e)) * R) i j) 0 := by
  simp only [← gen_sum]
  unfold makeLeftFadSO3
  simp only [Matrix.mul_apply]
  refine Represents.sum fun l => ?_
  refine Represents.mul ?_ (Represents.const _)
  exact rep_exp start h so3Gen i l _ (so3_entry start i l).1 (so3_entry start i l).2

theorem vec0_entry (start : Nat) (i : Nat) (hi : i < 3) : val (makeFadVector D 3 (fun _ => 0) start i) = 0 ∧
    ∀ d : Fin D, deriv (makeFadVector D 3 (fun _ => 0) start i) d = if (d : Nat) = start + i then 1 else 0 := by
  rw [makeFadVector_apply 3 _ start i hi]
  split_ifs with h
  · simp
  · refine ⟨by simp, fun d => ?_⟩
    rw [if_neg (by omega)]; simp

theorem se3_entry (start : Nat) (i : Fin 3) :
    (∀ j : Fin 3, val ((makeFadSE3 D start).R i j) = (1 : M 4) i.castSucc j.castSucc ∧
      ∀ d : Fin D, deriv ((makeFadSE3 D start).R i j) d = ∑ q : Fin 6, if (d : Nat) = start + q then se3Gen q i.castSucc j.castSucc else 0) ∧
    (val ((makeFadSE3 D start).t i) = (1 : M 4) i.castSucc (Fin.last 3) ∧
      ∀ d : Fin D, deriv ((makeFadSE3 D start).t i) d = ∑ q : Fin 6, if (d : Nat) = start + q then se3Gen q i.castSucc (Fin.last 3) else 0) := by
  constructor
  · intro j
    unfold makeFadSE3
    refine ⟨?_, fun d => ?_⟩
    · rw [(so3_entry (start + 3) i j).1]
      simp [Matrix.one_apply]
    · rw [(so3_entry (start + 3) i j).2 d, Fin.sum_univ_six, Fin.sum_univ_three]
      fin_cases i <;> fin_cases j <;> simp [so3Gen, se3Gen, put, ix3, Fin.ext_iff, Nat.add_assoc]
  · unfold makeFadSE3
    refine ⟨?_, fun d => ?_⟩
    · rw [(vec0_entry start i i.2).1]
      fin_cases i <;> simp [Matrix.one_apply, Fin.ext_iff]
    · rw [(vec0_entry start i i.2).2 d, Fin.sum_univ_six]
      fin_cases i <;> simp [se3Gen, put, ix3, Fin.ext_iff]

/-- products with constant matrices -/
theorem rep_mulR {n k : Nat} (start : Nat) (h : start + k ≤ D) (G : Fin k → M (n + 1)) (a : FSE D n) (T : SE n)
    (hR : ∀ i j, val (a.R i j) = (1 : M (n + 1)) i.castSucc j.castSucc ∧
      ∀ d : Fin D, deriv (a.R i j) d = ∑ q : Fin k, if (d : Nat) = start + q then G q i.castSucc j.castSucc else 0)
    (ht : ∀ i, val (a.t i) = (1 : M (n + 1)) i.castSucc (Fin.last n) ∧
      ∀ d : Fin D, deriv (a.t i) d = ∑ q : Fin k, if (d : Nat) = start + q then G q i.castSucc (Fin.last n) else 0) (i : Fin n) :
    (∀ j, Represents ((a.mulR T).R i j)
      (fun e => (NormedSpace.exp (∑ q, vars k start h e q • G q) * T.mat) i.castSucc j.castSucc) 0) ∧
    Represents ((a.mulR T).t i) (fun e => (NormedSpace.exp (∑ q, vars k start h e q • G q) * T.mat) i.castSucc (Fin.last n)) 0 := by
  constructor
  · intro j
    simp only [Matrix.mul_apply, Fin.sum_univ_castSucc, SE.mat, aug, Fin.lastCases_last, Fin.lastCases_castSucc, FSE.mulR, mul_zero,
      add_zero]
    refine Represents.sum fun l => ?_
    exact (rep_exp start h G i.castSucc l.castSucc _ (hR i l).1 (hR i l).2).mul (Represents.const _)
  · simp only [Matrix.mul_apply, Fin.sum_univ_castSucc, SE.mat, aug, Fin.lastCases_last, Fin.lastCases_castSucc, FSE.mulR, mul_one,
      Pi.add_apply, mulVec, dotProduct]
    have h1 := rep_exp start h G i.castSucc (Fin.last n) _ (ht i).1 (ht i).2
    have h2 : Represents (∑ l, a.R i l * cV T.t l)
        (fun e => ∑ l : Fin n, NormedSpace.exp (∑ q, vars k start h e q • G q) i.castSucc l.castSucc * T.t l) 0 := by
      refine Represents.sum fun l => ?_
      exact (rep_exp start h G i.castSucc l.castSucc _ (hR i l).1 (hR i l).2).mul (Represents.const _)
    have h3 := h2.add h1
    rw [add_comm] at h3
    exact h3

/-- **C58** `make_left_fad_se3(T, start)` is `exp(ε) T` at `ε = 0`, where `ε` are the six variables from `start` on. -/
theorem c58_left_se3 (start : Nat) (h : start + 6 ≤ D) (T : SE 3) (i : Fin 3) :
    (∀ j, Represents ((makeLeftFadSE3 D T start).R i j)
      (fun e => (NormedSpace.exp (∑ q, vars 6 start h e q • se3Gen q) * T.mat) i.castSucc j.castSucc) 0) ∧
    Represents ((makeLeftFadSE3 D T start).t i)
      (fun e => (NormedSpace.exp (∑ q, vars 6 start h e q • se3Gen q) * T.mat) i.castSucc (Fin.last 3)) 0 :=
  rep_mulR start h se3Gen _ T (fun i j => (se3_entry start i).1 j) (fun i => (se3_entry start i).2) i

theorem so2_entry (start : Nat) (i j : Fin 2) : val (makeFadSO2 D start i j) = (1 : M 2) i j ∧
    ∀ d : Fin D, deriv (makeFadSO2 D start i j) d = if (d : Nat) = start then so2Gen i j else 0 := by
  have hz : (diff (const 0) start : F D).fst = 0 := by
    have := val_diff (const 0 : F D) start
    rw [val_const] at this; exact this
  have hs : ∀ d, (diff (const 0) start : F D).snd d = if (d : Nat) = start then 1 else 0 := fun d =>
    congrFun (deriv_diff (const 0 : F D) start) d
  unfold makeFadSO2 so2ExpF fsin fcos
  refine ⟨?_, fun d => ?_⟩
  · fin_cases i <;> fin_cases j <;> simp [hz]
  · fin_cases i <;> fin_cases j <;> simp [hz, hs, so2Gen] <;> split_ifs <;> simp

/-- **C58** `make_left_fad_so2(R, start)` is `exp(ε) R` at `ε = 0`, where `ε` is the variable `start`. -/
theorem c58_left_so2 (start : Nat) (h : start < D) (R : M 2) (i j : Fin 2) :
    Represents (makeLeftFadSO2 D R start i j) (fun e => (so2Exp (e ⟨start, h⟩) * R) i j) 0 := by
  simp only [c33_exp_is_matrix_exponential]
  unfold makeLeftFadSO2
  simp only [Matrix.mul_apply]
  refine Represents.sum fun l => ?_
  refine Represents.mul ?_ (Represents.const _)
  have := rep_exp (k := 1) start (by omega) (fun _ => so2Gen) i l (makeFadSO2 D start i l) (so2_entry start i l).1 (by
    intro d; rw [(so2_entry start i l).2 d]; simp)
  simpa [vars] using this

theorem se2_entry (start : Nat) (i : Fin 2) :
    (∀ j : Fin 2, val ((makeFadSE2 D start).R i j) = (1 : M 3) i.castSucc j.castSucc ∧
      ∀ d : Fin D, deriv ((makeFadSE2 D start).R i j) d = ∑ q : Fin 3, if (d : Nat) = start + q then se2Gen q i.castSucc j.castSucc else 0) ∧
    (val ((makeFadSE2 D start).t i) = (1 : M 3) i.castSucc (Fin.last 2) ∧
      ∀ d : Fin D, deriv ((makeFadSE2 D start).t i) d = ∑ q : Fin 3, if (d : Nat) = start + q then se2Gen q i.castSucc (Fin.last 2) else 0) := by
  have v0 := vec0_entry (D := D) start 0 (by omega)
  have v1 := vec0_entry (D := D) start 1 (by omega)
  have v2 := vec0_entry (D := D) start 2 (by omega)
  have hz : (makeFadVector D 3 (fun _ => 0) start 2).fst = 0 := v2.1
  have hs : ∀ d, (makeFadVector D 3 (fun _ => 0) start 2).snd d = if (d : Nat) = start + 2 then 1 else 0 := v2.2
  constructor
  · intro j
    unfold makeFadSE2 se2ExpSmallF so2ExpF fsin fcos
    refine ⟨?_, fun d => ?_⟩
    · fin_cases i <;> fin_cases j <;> simp [hz, Matrix.one_apply, Fin.ext_iff]
    · rw [Fin.sum_univ_three]
      fin_cases i <;> fin_cases j <;> simp [hz, hs, se2Gen, put, Fin.ext_iff] <;> split_ifs <;> simp
  · unfold makeFadSE2 se2ExpSmallF
    refine ⟨?_, fun d => ?_⟩
    · fin_cases i <;> simp [v0.1, v1.1, v2.1, Matrix.one_apply, Fin.ext_iff]
    · rw [Fin.sum_univ_three]
      fin_cases i <;> simp [v0.1, v1.1, v2.1, v0.2, v1.2, v2.2, se2Gen, put, Fin.ext_iff]

/-- **C58** `make_left_fad_se2(T, start)` is `exp(ε) T` at `ε = 0`, where `ε` are the three variables from `start` on. -/
theorem c58_left_se2 (start : Nat) (h : start + 3 ≤ D) (T : SE 2) (i : Fin 2) :
    (∀ j, Represents ((makeLeftFadSE2 D T start).R i j)
      (fun e => (NormedSpace.exp (∑ q, vars 3 start h e q • se2Gen q) * T.mat) i.castSucc j.castSucc) 0) ∧
    Represents ((makeLeftFadSE2 D T start).t i)
      (fun e => (NormedSpace.exp (∑ q, vars 3 start h e q • se2Gen q) * T.mat) i.castSucc (Fin.last 2)) 0 :=
  rep_mulR start h se2Gen _ T (fun i j => (se2_entry start i).1 j) (fun i => (se2_entry start i).2) i

/-- the derivatives of a transformed point -/
theorem act_deriv {n k : Nat} (start : Nat) (G : Fin k → M (n + 1)) (a : FSE D n) (T : SE n)
    (hR : ∀ i j, val (a.R i j) = (1 : M (n + 1)) i.castSucc j.castSucc ∧
      ∀ d : Fin D, deriv (a.R i j) d = ∑ q : Fin k, if (d : Nat) = start + q then G q i.castSucc j.castSucc else 0)
    (ht : ∀ i, val (a.t i) = (1 : M (n + 1)) i.castSucc (Fin.last n) ∧
      ∀ d : Fin D, deriv (a.t i) d = ∑ q : Fin k, if (d : Nat) = start + q then G q i.castSucc (Fin.last n) else 0)
    (x : V n) (i : Fin n) (q : Fin k) (d : Fin D) (hd : (d : Nat) = start + q) :
    val ((a.mulR T).act x i) = T.act x i ∧
    deriv ((a.mulR T).act x i) d = (G q).mulVec (Fin.snoc (T.act x) 1) i.castSucc := by
  have hR' : ∀ i j, deriv (a.R i j) d = G q i.castSucc j.castSucc := by
    intro i j
    rw [(hR i j).2 d, Finset.sum_eq_single q]
    · rw [if_pos hd]
    · intro b _ hb; rw [if_neg]; intro e; apply hb; apply Fin.ext; omega
    · intro hb; exact absurd (Finset.mem_univ _) hb
  have ht' : ∀ i, deriv (a.t i) d = G q i.castSucc (Fin.last n) := by
    intro i
    rw [(ht i).2 d, Finset.sum_eq_single q]
    · rw [if_pos hd]
    · intro b _ hb; rw [if_neg]; intro e; apply hb; apply Fin.ext; omega
    · intro hb; exact absurd (Finset.mem_univ _) hb
  have h1 : ∀ i j, val (a.R i j) = if i = j then 1 else 0 := by
    intro i j; rw [(hR i j).1, Matrix.one_apply]; simp
  have h2 : ∀ i, val (a.t i) = 0 := by
    intro i; rw [(ht i).1, Matrix.one_apply, if_neg]; exact (Fin.castSucc_lt_last i).ne
  simp only [FSE.act, FSE.mulR, Pi.add_apply, mulVec, dotProduct, Matrix.mul_apply, cM, cV, val_add, val_sum, val_mul, val_const, h1, h2,
    deriv_add, deriv_sum, deriv_mul, deriv_const, Finset.sum_apply, Pi.smul_apply, hR', ht', SE.act, Fin.sum_univ_castSucc,
    Fin.snoc_castSucc, Fin.snoc_last, smul_zero, zero_add, smul_eq_mul, ite_mul, one_mul, zero_mul, Finset.sum_ite_eq, Finset.mem_univ,
    if_true, mul_one, zero_add, Pi.add_apply]
  refine ⟨trivial, ?_⟩
  simp only [mul_add, Finset.sum_add_distrib, Finset.mul_sum, Finset.sum_mul]
  rw [Finset.sum_comm]
  have e1 : ∀ (f g : Fin n → ℝ), ∑ l, f l * g l = ∑ l, g l * f l := fun f g => Finset.sum_congr rfl fun l _ => mul_comm _ _
  rw [e1 (fun l => G q i.castSucc l.castSucc) T.t]
  have e2 : ∀ l j, x j * (T.R l j * G q i.castSucc l.castSucc) = G q i.castSucc l.castSucc * (T.R l j * x j) := fun l j => by ring
  simp only [e2]
  ring

/-- **C58** the Jacobian of a transformed point with respect to a left perturbation is the generator field at the transformed point. -/
theorem c58_action (start : Nat) (T : SE 3) (x : V 3) (i : Fin 3) (q : Fin 6) (d : Fin D) (hd : (d : Nat) = start + q)
    (T2 : SE 2) (x2 : V 2) (i2 : Fin 2) (q2 : Fin 3) (d2 : Fin D) (hd2 : (d2 : Nat) = start + q2) :
    val ((makeLeftFadSE3 D T start).act x i) = T.act x i ∧
    deriv ((makeLeftFadSE3 D T start).act x i) d = se3GenField q (Fin.snoc (T.act x) 1) i.castSucc ∧
    val ((makeLeftFadSE2 D T2 start).act x2 i2) = T2.act x2 i2 ∧
    deriv ((makeLeftFadSE2 D T2 start).act x2 i2) d2 = (se2Gen q2).mulVec (Fin.snoc (T2.act x2) 1) i2.castSucc := by
  have h3 := act_deriv start se3Gen (makeFadSE3 D start) T (fun i j => (se3_entry start i).1 j) (fun i => (se3_entry start i).2) x i q d hd
  have h2 := act_deriv start se2Gen (makeFadSE2 D start) T2 (fun i j => (se2_entry start i).1 j) (fun i => (se2_entry start i).2) x2 i2 q2 d2 hd2
  refine ⟨h3.1, ?_, h2.1, h2.2⟩
  rw [(c39_generators 0 0 0 (Fin.snoc (T.act x) 1) q).2]
  exact h3.2

/-- a concrete use: the derivative of `x₀² x₁` at `(3, 5)` is `(30, 9)` -/
example (init : Mat ℝ) (r0 : Vec ℝ) :
    let x : Nat → F 2 := makeFadVector 2 2 (fun i => if i = 0 then 3 else 5) 0
    let y : Nat → F 2 := fun _ => x 0 ^ 2 * x 1
    getJacobian 1 y init r0 0 0 = 30 ∧ getJacobian 1 y init r0 0 1 = 9 := by
  have h := fun j => c58_jacobian 2 1 (fun i => if i = 0 then 3 else 5) (fun _ => MvPolynomial.X 0 ^ 2 * MvPolynomial.X 1) init r0 0
    (by omega) j
  have h0 := (h 0).2
  have h1 := (h 1).2
  simp [MvPolynomial.pderiv_X] at h0 h1
  norm_num at h0 h1
  exact ⟨h0, h1⟩

end
end TooN.Fad
