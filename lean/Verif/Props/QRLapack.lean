import Verif.Spec.QRLapack
import Verif.Props.LapackChol
import Mathlib.LinearAlgebra.Matrix.NonsingularInverse
import Mathlib.Tactic
/-!
# QR_Lapack.h (C57)
-/
set_option linter.unusedSectionVars false
namespace TooN.QRLapack
open LU (Buf fview)
open LapackChol (packCol fview_packCol)
noncomputable section

theorem zeroLower_apply (k : Nat) (M : Mat ℝ) (i j : Nat) :
    zeroLower k M i j = if i < k ∧ j < i then 0 else M i j := by
  have inner : ∀ (r : Nat) (M : Mat ℝ) (i j : Nat),
      forN r (fun c M => Mat.set M r c 0) M i j = if i = r ∧ j < r then (0 : ℝ) else M i j := by
    intro r M i j
    have key : ∀ s i j, forN s (fun c M => Mat.set M r c 0) M i j = if i = r ∧ j < s then (0 : ℝ) else M i j := by
      intro s
      induction s with
      | zero => intro i j; simp [forN]
      | succ s ih =>
        intro i j
        rw [forN_succ]
        change (if i = r ∧ j = s then (0 : ℝ) else _) = _
        rw [ih]
        split_ifs <;> first | rfl | omega
    exact key r i j
  have key : ∀ s, 1 ≤ s → ∀ i j, forRange 1 s (fun r copy => forN r (fun c copy => Mat.set copy r c 0) copy) M i j =
      if i < s ∧ j < i then (0 : ℝ) else M i j := by
    intro s hs
    induction s, hs using Nat.le_induction with
    | base => intro i j; rw [if_neg (by omega)]; simp [forRange, forN]
    | succ s hs ih =>
      intro i j
      rw [forRange_succ _ _ hs, inner]
      split_ifs with h1 h2 h2
      · rfl
      · omega
      · rw [ih, if_pos (by omega)]
      · rw [ih, if_neg (by omega)]
  unfold zeroLower
  rcases Nat.eq_zero_or_pos k with h | h
  · subst h; rw [if_neg (by omega)]; simp [forRange, forN]
  · exact key k h i j

theorem hvec_congr (a b : Mat ℝ) (i r : Nat) (h : i < r → a r i = b r i) : hvec a i r = hvec b i r := by
  unfold hvec
  split_ifs with h1 h2
  · rfl
  · rfl
  · exact h (by omega)

theorem refl_congr (m : Nat) (a b : Mat ℝ) (ta tb : Vec ℝ) (i : Nat) (h : ∀ r, i < r → r < m → a r i = b r i) (ht : ta i = tb i) :
    refl m a ta i = refl m b tb i := by
  unfold refl
  congr 1
  ext r c
  simp only [Matrix.of_apply]
  rw [ht, hvec_congr a b i r fun h' => h r h' r.2, hvec_congr a b i c fun h' => h c h' c.2]

theorem reflProd_congr (m : Nat) (a b : Mat ℝ) (ta tb : Vec ℝ) (k : Nat) (h : ∀ i, i < k → ∀ r, i < r → r < m → a r i = b r i)
    (ht : ∀ i, i < k → ta i = tb i) : reflProd m a ta k = reflProd m b tb k := by
  induction k with
  | zero => rfl
  | succ k ih =>
    unfold reflProd
    rw [ih (fun i hi => h i (by omega)) (fun i hi => ht i (by omega)), refl_congr m a b ta tb k (h k (by omega)) (ht k (by omega))]

variable {lp : Lapack} {M N : Nat} {A : Mat ℝ} {p : Bool}

/-- **C57** for at least as many columns as rows: `Q` is orthogonal, `R` upper trapezoidal, `P` a permutation of the columns, and
column `j` of `Q R` is column `P(j)` of `A`. -/
theorem c57_factorisation (h : LapackOK lp) (hMN : M ≤ N) :
    (asM M M (getQ (construct lp M N A p))).transpose * asM M M (getQ (construct lp M N A p)) = 1 ∧
    (∀ r c, r < M → c < r → getR (construct lp M N A p) r c = 0) ∧
    (∀ j, j < N → 0 ≤ getP (construct lp M N A p) j ∧ getP (construct lp M N A p) j < N) ∧
    (∀ j j', j < N → j' < N → getP (construct lp M N A p) j = getP (construct lp M N A p) j' → j = j') ∧
    (∀ (r : Fin M) (j : Fin N), (asM M M (getQ (construct lp M N A p)) * asM M N (getR (construct lp M N A p))) r j =
      A r (getP (construct lp M N A p) j).toNat) := by
  rcases hg : lp.geqp3 M N (packCol M A) M (initPivot p) with ⟨a, jp, tau⟩
  obtain ⟨h1, h2, h3, h4⟩ := h.geqp3 M N _ _ a jp tau hg
  have hmin : min M N = M := by omega
  rw [hmin] at h1 h4
  have hQ : asM M M (getQ (construct lp M N A p)) = reflProd M (fview M a) tau M := by
    simp only [construct, getQ, hg, squareSize, hmin]
    rw [h.orgqr]
    apply reflProd_congr
    · intro i hi r hr hrM
      have := fview_packCol M M (fview M a)
      rw [asM_eq_iff] at this
      exact this r i hrM hi
    · intro _ _; rfl
  have hR : asM M N (getR (construct lp M N A p)) = upperTrap M N (fview M a) := by
    simp only [construct, getR, hg, squareSize, hmin]
    ext r c
    simp only [asM_apply, zeroLower_apply, upperTrap, Matrix.of_apply]
    have := r.2
    split_ifs with h1 h2 h2 <;> first | rfl | omega
  have hP : ∀ j, getP (construct lp M N A p) j = (jp j : Int) - 1 := by
    intro j
    simp only [construct, getP, hg]
  rw [hQ, hR]
  refine ⟨h1, ?_, ?_, ?_, ?_⟩
  · intro r c hr hc
    have := congrFun (congrFun hR ⟨r, hr⟩) ⟨c, by omega⟩
    simp only [asM_apply, upperTrap, Matrix.of_apply] at this
    rw [this, if_neg (by omega)]
  · intro j hj
    have := h2 j hj
    rw [hP]
    omega
  · intro j j' hj hj' e
    rw [hP, hP] at e
    exact h3 j j' hj hj' (by omega)
  · intro r j
    rw [h4]
    have := h2 j j.2
    have hj : jp j - 1 < N := by omega
    have e := fview_packCol M N A
    rw [asM_eq_iff] at e
    rw [e r _ r.2 hj, hP]
    congr 1
    omega

/-- **C57** without pivoting the permutation is the identity. -/
theorem c57_no_pivoting (h : LapackOK lp) (j : Nat) (hj : j < N) : getP (construct lp M N A false) j = j := by
  have := h.geqp3_fixed M N (packCol M A) (initPivot false) (by intro j _; simp [initPivot]) j hj
  simp only [construct, getP, this]
  omega

/-- **C57** with pivoting the diagonal of `R` is sorted by magnitude. -/
theorem c57_pivoting_sorted (h : LapackOK lp) (hMN : M ≤ N) (i j : Nat) (hij : i ≤ j) (hj : j < M) :
    |getR (construct lp M N A true) j j| ≤ |getR (construct lp M N A true) i i| := by
  have := h.geqp3_free M N (packCol M A) (initPivot true) (by intro j _; simp [initPivot]) i j hij hj (by omega)
  simp only [construct, getR, zeroLower_apply, lt_irrefl, and_false, if_false]
  exact this

/-- The documented convention "column `i` of `A` is column `P(i)` of `QR`" is inverted: some wide matrix violates it, whatever LAPACK
does. -/
theorem c57_doc_permutation_wrong (h : LapackOK lp) :
    ∃ A : Mat ℝ, ¬ ∀ (r : Fin 3) (i : Fin 3), A r i =
      ∑ l, asM 3 3 (getQ (construct lp 3 3 A true)) r l * getR (construct lp 3 3 A true) l (getP (construct lp 3 3 A true) i).toNat := by
  by_contra hall
  push Not at hall
  -- norms of the columns 2, 3, 1 : the order must be 1, 0, 2
  set A : Mat ℝ := fun r c => if r = 0 ∧ c = 2 then 3 else if r = 1 ∧ c = 0 then 2 else if r = 2 ∧ c = 1 then 1 else 0 with hA
  have hdoc := hall A
  obtain ⟨hQ, hR0, hPb, hPi, hf⟩ := c57_factorisation (p := true) (A := A) h (le_refl 3)
  have hs := c57_pivoting_sorted (A := A) h (le_refl 3)
  generalize construct lp 3 3 A true = st at *
  have hn : ∀ j k : Fin 3, ∑ l : Fin 3, getR st l j * getR st l k = ∑ r : Fin 3, A r (getP st j).toNat * A r (getP st k).toNat := by
    intro j k
    have e : (asM 3 3 (getR st)).transpose * asM 3 3 (getR st) =
        (asM 3 3 (getQ st) * asM 3 3 (getR st)).transpose * (asM 3 3 (getQ st) * asM 3 3 (getR st)) := by
      rw [Matrix.transpose_mul, Matrix.mul_assoc, ← Matrix.mul_assoc _ (asM 3 3 (getQ st)), hQ, Matrix.one_mul]
    have e2 := congrFun (congrFun e j) k
    rw [Matrix.mul_apply, Matrix.mul_apply] at e2
    simp only [Matrix.transpose_apply, hf] at e2
    simp only [asM_apply] at e2
    exact e2
  have z10 := hR0 1 0 (by omega) (by omega)
  have z20 := hR0 2 0 (by omega) (by omega)
  have z21 := hR0 2 1 (by omega) (by omega)
  have s01 := hs 0 1 (by omega) (by omega)
  have s12 := hs 1 2 (by omega) (by omega)
  rw [← sq_le_sq] at s01 s12
  have b0 := hPb 0 (by omega)
  have b1 := hPb 1 (by omega)
  have b2 := hPb 2 (by omega)
  have i01 := hPi 0 1 (by omega) (by omega)
  have i02 := hPi 0 2 (by omega) (by omega)
  have i12 := hPi 1 2 (by omega) (by omega)
  obtain ⟨p0, e0⟩ := Int.eq_ofNat_of_zero_le b0.1
  obtain ⟨p1, e1⟩ := Int.eq_ofNat_of_zero_le b1.1
  obtain ⟨p2, e2⟩ := Int.eq_ofNat_of_zero_le b2.1
  have n00 := hn 0 0
  have n01 := hn 0 1
  have n02 := hn 0 2
  have n11 := hn 1 1
  have n12 := hn 1 2
  have n22 := hn 2 2
  have d0 := hdoc 1 0
  have f2 := hf 1 2
  rw [Matrix.mul_apply] at f2
  simp only [Fin.sum_univ_three, Fin.isValue, Fin.val_zero, Fin.val_one, Fin.val_two, e0, e1, e2, Int.toNat_natCast, asM_apply, z10, z20, z21]
    at n00 n01 n02 n11 n12 n22 d0 f2
  rw [e0] at b0 i01 i02
  rw [e1] at b1 i01 i12
  rw [e2] at b2 i02 i12
  have c0 : p0 = 0 ∨ p0 = 1 ∨ p0 = 2 := by omega
  have c1 : p1 = 0 ∨ p1 = 1 ∨ p1 = 2 := by omega
  have c2 : p2 = 0 ∨ p2 = 1 ∨ p2 = 2 := by omega
  clear hdoc hall hn hf hQ hR0 hPb hPi hs b0 b1 b2 e0 e1 e2
  rcases c0 with rfl | rfl | rfl <;> rcases c1 with rfl | rfl | rfl <;> rcases c2 with rfl | rfl | rfl <;>
    first
    | (exfalso; clear n00 n01 n02 n11 n12 n22 d0 f2 s01 s12 z10 z20 z21; simp at i01; done)
    | (exfalso; clear n00 n01 n02 n11 n12 n22 d0 f2 s01 s12 z10 z20 z21; simp at i02; done)
    | (exfalso; clear n00 n01 n02 n11 n12 n22 d0 f2 s01 s12 z10 z20 z21; simp at i12; done)
    | (simp [hA] at n00 n01 n02 n11 n12 n22 d0 f2
       clear i01 i02 i12
       have g0 : getR st 0 0 ≠ 0 := by
         intro e; rw [e] at n00; norm_num at n00
       have g1 := n01.resolve_left g0
       have g2 := n02.resolve_left g0
       rw [g1] at n11 n12
       rw [g2] at n12 n22
       have g3 : getR st 1 1 ≠ 0 := by
         intro e; rw [e] at n11; norm_num at n11
       have g4 : getR st 1 2 = 0 := by
         have : getR st 1 1 * getR st 1 2 = 0 := by linarith
         exact (mul_eq_zero.mp this).resolve_left g3
       rw [g4] at n22
       first
       | nlinarith
       | (rw [z20, g1] at *; linarith)
       | linarith)

/-- The documented warning is real: for the `2 × 1` matrix `(3, 4)ᵀ`, whatever LAPACK does, `Q` is not orthogonal, and the reflector is
left below the diagonal of `R`. -/
theorem c57_tall_wrong (h : LapackOK lp) : ∃ A : Mat ℝ,
    (asM 1 1 (getQ (construct lp 2 1 A p))).transpose * asM 1 1 (getQ (construct lp 2 1 A p)) ≠ 1 ∧
    getR (construct lp 2 1 A p) 1 0 ≠ 0 := by
  refine ⟨fun r _ => if r = 0 then 3 else 4, ?_⟩
  set A : Mat ℝ := fun r _ => if r = 0 then 3 else 4 with hA
  rcases hg : lp.geqp3 2 1 (packCol 2 A) 2 (initPivot p) with ⟨a, jp, tau⟩
  obtain ⟨h1, h2, -, h4⟩ := h.geqp3 2 1 _ _ a jp tau hg
  have hj : jp 0 = 1 := by have := h2 0 (by omega); omega
  have hmin : min 2 1 = 1 := rfl
  rw [hmin] at h1 h4
  have f0 := h4 0 0
  have f1 := h4 1 0
  have o00 := congrFun (congrFun h1 0) 0
  have o01 := congrFun (congrFun h1 0) 1
  have o11 := congrFun (congrFun h1 1) 1
  have hQ : asM 1 1 (getQ (construct lp 2 1 A p)) = reflProd 1 (fview 1 (packCol 1 (fview 2 a))) tau 1 := by
    simp only [construct, getQ, hg, squareSize, hmin]
    rw [h.orgqr]
  have hR : getR (construct lp 2 1 A p) 1 0 = fview 2 a 1 0 := by
    simp only [construct, getR, hg, squareSize, hmin, zeroLower_apply]
    rw [if_neg (by omega)]
  rw [hQ, hR]
  have hA0 : fview 2 (packCol 2 A) 0 0 = 3 := by simp [fview, packCol, hA]
  have hA1 : fview 2 (packCol 2 A) 1 0 = 4 := by simp [fview, packCol, hA]
  have hv0 : hvec (fview 2 a) 0 0 = 1 := by simp [hvec]
  have hv1 : hvec (fview 2 a) 0 1 = fview 2 a 1 0 := by simp [hvec]
  have hw0 : ∀ b : Mat ℝ, hvec b 0 0 = 1 := by simp [hvec]
  simp only [reflProd, Matrix.one_mul, Matrix.mul_apply, Fin.sum_univ_two, refl, upperTrap, Matrix.sub_apply, Matrix.of_apply,
    Matrix.one_apply, Fin.isValue, Fin.val_zero, Fin.val_one, Matrix.transpose_apply, hv0, hv1, hj] at f0 f1 o00 o01 o11
  norm_num at f0 f1 o00 o01 o11
  rw [hA0] at f0
  rw [hA1] at f1
  generalize fview 2 a 1 0 = v at *
  generalize fview 2 a 0 0 = r at *
  have hr : r * r = 25 := by
    linear_combination (-(r * r)) * o00 + ((1 - tau 0) * r + 3) * f0 + (4 - tau 0 * v * r) * f1
  refine ⟨?_, ?_⟩
  · intro e
    have e0 := congrFun (congrFun e 0) 0
    simp only [reflProd, Matrix.one_mul, Matrix.mul_apply, Finset.univ_unique, Finset.sum_singleton, refl, Matrix.sub_apply,
      Matrix.of_apply, Matrix.one_apply, Fin.isValue, Fin.default_eq_zero, Fin.val_zero, Matrix.transpose_apply, hw0] at e0
    norm_num at e0
    have : (9 : ℝ) = 25 := by
      linear_combination hr + (r * r) * e0 - ((1 - tau 0) * r + 3) * f0
    norm_num at this
  · intro e
    rw [e] at f1
    norm_num at f1

/-! ### The contract can be met -/

/-- existence of an elementary reflector -/
theorem exists_house (m k : Nat) (hk : k < m) (x : Nat → ℝ) : ∃ (v : Nat → ℝ) (t : ℝ),
    (∀ r, r < k → v r = 0) ∧ v k = 1 ∧ t * t * ∑ l : Fin m, v l * v l = 2 * t ∧
    ∀ r, k < r → r < m → x r - t * v r * ∑ l : Fin m, v l * x l = 0 := by
  classical
  set S : ℝ := ∑ l : Fin m, if k < (l : Nat) then x l * x l else 0 with hS
  have hS0 : 0 ≤ S := Finset.sum_nonneg fun l _ => by split_ifs; exact mul_self_nonneg _; exact le_refl _
  have hone : ∀ c : ℝ, ∑ l : Fin m, (if (l : Nat) = k then c else 0) = c := by
    intro c
    rw [Finset.sum_eq_single (⟨k, hk⟩ : Fin m)]
    · simp
    · intro b _ hb; rw [if_neg]; intro h; exact hb (Fin.ext h)
    · intro h; exact absurd (Finset.mem_univ _) h
  rcases eq_or_lt_of_le hS0 with hz | hpos
  · refine ⟨fun r => if r = k then 1 else 0, 0, fun r hr => if_neg (by omega), if_pos rfl, by ring, ?_⟩
    intro r hr hrm
    have := (Finset.sum_eq_zero_iff_of_nonneg (fun l _ => by
      split_ifs; exact mul_self_nonneg _; exact le_refl _)).mp hz.symm ⟨r, hrm⟩ (Finset.mem_univ _)
    simp only [hr, if_true, mul_self_eq_zero] at this
    rw [this]; ring
  · set s := Real.sqrt (x k * x k + S) with hs
    have hss : s * s = x k * x k + S := Real.mul_self_sqrt (by nlinarith [mul_self_nonneg (x k)])
    have hsp : 0 < s := Real.sqrt_pos.mpr (by nlinarith [mul_self_nonneg (x k)])
    obtain ⟨β, hβ, hβ0, hd⟩ : ∃ β : ℝ, β * β = x k * x k + S ∧ β ≠ 0 ∧ x k - β ≠ 0 := by
      rcases le_total (x k) 0 with h | h
      · exact ⟨s, hss, hsp.ne', by linarith [hsp] |> fun (h : x k - s < 0) => h.ne⟩
      · exact ⟨-s, by linarith, neg_ne_zero.mpr hsp.ne', by linarith [hsp] |> fun (h : 0 < x k - -s) => h.ne'⟩
    set d := x k - β with hdd
    refine ⟨fun r => if r < k then 0 else if r = k then 1 else x r / d, -d / β, fun r hr => if_pos hr, by simp, ?_, ?_⟩
    · have e : ∑ l : Fin m, (if (l : Nat) < k then (0 : ℝ) else if (l : Nat) = k then 1 else x l / d) *
          (if (l : Nat) < k then (0 : ℝ) else if (l : Nat) = k then 1 else x l / d) = 1 + S / (d * d) := by
        conv_rhs => rw [← hone 1]
        rw [hS, Finset.sum_div, ← Finset.sum_add_distrib]
        apply Finset.sum_congr rfl
        intro l _
        rcases lt_trichotomy (l : Nat) k with h | h | h
        · simp [h, h.ne, h.not_gt]
        · simp [h]
        · simp [h, h.ne', h.not_gt]; field_simp
      rw [e]
      have : S = β * β - x k * x k := by linarith
      rw [this]
      have hx : x k = d + β := by rw [hdd]; ring
      rw [hx]
      field_simp
      ring
    · intro r hr hrm
      have e : ∑ l : Fin m, (if (l : Nat) < k then (0 : ℝ) else if (l : Nat) = k then 1 else x l / d) * x l = x k + S / d := by
        rw [← hone (x k), hS, Finset.sum_div, ← Finset.sum_add_distrib]
        apply Finset.sum_congr rfl
        intro l _
        rcases lt_trichotomy (l : Nat) k with h | h | h
        · simp [h, h.ne, h.not_gt]
        · simp [h]
        · simp [h, h.ne', h.not_gt]; field_simp
      rw [e]
      simp only [show ¬ r < k by omega, show ¬ r = k by omega, if_false]
      have : S = β * β - x k * x k := by linarith
      rw [this]
      have hx : x k = d + β := by rw [hdd]; ring
      rw [hx]
      field_simp
      ring

/-- sum of squares of the column `j` from row `i` on -/
def tail (m : Nat) (W : Mat ℝ) (i j : Nat) : ℝ := ∑ l : Fin m, if i ≤ (l : Nat) then W l j * W l j else 0

/-- the state of the factorisation after `k` columns -/
structure Inv (m n : Nat) (A : Mat ℝ) (piv : Bool) (k : Nat) (V : Mat ℝ) (tau : Vec ℝ) (W : Mat ℝ) (p : Nat → Nat) : Prop where
  orth : (reflProd m V tau k).transpose * reflProd m V tau k = 1
  prod : ∀ (r : Fin m) (j : Fin n), (reflProd m V tau k * asM m n W) r j = A r (p j)
  zero : ∀ j, j < k → ∀ r, j < r → r < m → W r j = 0
  bound : ∀ j, j < n → p j < n
  inj : ∀ j j', j < n → j' < n → p j = p j' → j = j'
  fixed : piv = false → ∀ j, j < n → p j = j
  free : piv = true → ∀ i, i < k → ∀ j, i ≤ j → j < n → tail m W i j ≤ W i i * W i i

/-- swap of two indices -/
def sw (k c j : Nat) : Nat := if j = k then c else if j = c then k else j

theorem sw_lt {k c n j : Nat} (hk : k < n) (hc : c < n) (hj : j < n) : sw k c j < n := by unfold sw; split_ifs <;> omega
theorem sw_inj {k c j j' : Nat} (h : sw k c j = sw k c j') : j = j' := by unfold sw at h; split_ifs at h <;> omega
theorem sw_low {k c j : Nat} (hc : k ≤ c) (hj : j < k) : sw k c j = j := by unfold sw; split_ifs <;> omega
theorem sw_ge {k c j : Nat} (hc : k ≤ c) (hj : k ≤ j) : k ≤ sw k c j := by unfold sw; split_ifs <;> omega

theorem exists_step (m n : Nat) (A : Mat ℝ) (piv : Bool) (k : Nat) (hkm : k < m) (hkn : k < n) (V : Mat ℝ) (tau : Vec ℝ) (W : Mat ℝ)
    (p : Nat → Nat) (h : Inv m n A piv k V tau W p) : ∃ V' tau' W' p', Inv m n A piv (k + 1) V' tau' W' p' := by
  classical
  obtain ⟨c, hkc, hcn, hcp, hmax⟩ : ∃ c, k ≤ c ∧ c < n ∧ (piv = false → c = k) ∧
      (piv = true → ∀ j, k ≤ j → j < n → tail m W k j ≤ tail m W k c) := by
    cases piv with
    | false => exact ⟨k, le_refl _, hkn, fun _ => rfl, by simp⟩
    | true =>
      obtain ⟨c, hc, hmax⟩ := Finset.exists_max_image (Finset.Ico k n) (fun j => tail m W k j) ⟨k, by simp [hkn]⟩
      rw [Finset.mem_Ico] at hc
      exact ⟨c, hc.1, hc.2, by simp, fun _ j hj hjn => hmax j (by simp [hj, hjn])⟩
  set W1 : Mat ℝ := fun r j => W r (sw k c j) with hW1
  obtain ⟨v, t, v0, vk, vt, vz⟩ := exists_house m k hkm (fun r => W1 r k)
  set V' : Mat ℝ := fun r j => if j = k then v r else V r j with hV'
  set tau' : Vec ℝ := fun j => if j = k then t else tau j with htau'
  set W' : Mat ℝ := fun r j => W1 r j - t * v r * ∑ l : Fin m, v l * W1 l j with hW'
  have hv : ∀ r, hvec V' k r = v r := by
    intro r
    unfold hvec
    split_ifs with h1 h2
    · exact (v0 r h1).symm
    · rw [h2, vk]
    · simp [hV']
  have htk : tau' k = t := by simp [htau']
  set H := refl m V' tau' k with hH
  have hHr : ∀ r c, H r c = (1 : Matrix (Fin m) (Fin m) ℝ) r c - t * v r * v c := by
    intro r c
    rw [hH]
    unfold refl
    rw [Matrix.sub_apply, Matrix.of_apply, hv, hv, htk]
  have hHs : H.transpose = H := by
    ext r c
    rw [Matrix.transpose_apply, hHr, hHr]
    by_cases e : r = c
    · subst e; rfl
    · rw [Matrix.one_apply_ne e, Matrix.one_apply_ne (Ne.symm e)]; ring
  have hHW : ∀ (X : Mat ℝ) (r : Fin m) (j : Fin n), (H * asM m n X) r j = X r j - t * v r * ∑ l : Fin m, v l * X l j := by
    intro X r j
    rw [Matrix.mul_apply]
    simp only [hHr, asM_apply, sub_mul, Finset.sum_sub_distrib, Matrix.one_apply, ite_mul, one_mul, zero_mul, Finset.sum_ite_eq,
      Finset.mem_univ, if_true]
    rw [Finset.mul_sum]
    congr 1
    apply Finset.sum_congr rfl
    intro l _; ring
  have hHH : H * H = 1 := by
    ext r c
    rw [Matrix.mul_apply]
    have : ∀ l, H r l * H l c = (1 : Matrix (Fin m) (Fin m) ℝ) r l * (1 : Matrix (Fin m) (Fin m) ℝ) l c
        - t * v c * ((1 : Matrix (Fin m) (Fin m) ℝ) r l * v l) - t * v r * (v l * (1 : Matrix (Fin m) (Fin m) ℝ) l c)
        + t * t * v r * v c * (v l * v l) := by
      intro l; rw [hHr, hHr]; ring
    simp only [this, Finset.sum_add_distrib, Finset.sum_sub_distrib, ← Finset.mul_sum]
    rw [← Matrix.mul_apply, Matrix.one_mul]
    simp only [Matrix.one_apply, ite_mul, mul_ite, one_mul, mul_one, zero_mul, mul_zero, Finset.sum_ite_eq, Finset.sum_ite_eq',
      Finset.mem_univ, if_true]
    linear_combination (v r * v c) * vt
  have hW'e : asM m n W' = H * asM m n W1 := by
    ext r j
    rw [hHW]
    rfl
  have hprod : reflProd m V' tau' k = reflProd m V tau k := by
    apply reflProd_congr
    · intro i hi r _ _; simp [hV', hi.ne]
    · intro i hi; simp [htau', hi.ne]
  have hsum0 : ∀ X : Mat ℝ, ∀ j, (∀ r, k ≤ r → r < m → X r j = 0) → ∑ l : Fin m, v l * X l j = 0 := by
    intro X j hX
    apply Finset.sum_eq_zero
    intro l _
    rcases lt_or_ge (l : Nat) k with h1 | h1
    · rw [v0 l h1, zero_mul]
    · rw [hX l h1 l.2, mul_zero]
  have hlow : ∀ j, j < k → ∀ r, W' r j = W r j := by
    intro j hj r
    have hz : ∀ r, k ≤ r → r < m → W1 r j = 0 := by
      intro r hr hrm
      rw [hW1]
      dsimp only
      rw [sw_low hkc hj]
      exact h.zero j hj r (by omega) hrm
    rw [hW']
    dsimp only
    rw [hsum0 W1 j hz, mul_zero, sub_zero, hW1]
    dsimp only
    rw [sw_low hkc hj]
  have htail : ∀ i j, i ≤ k → tail m W' i j = tail m W1 i j := by
    intro i j hi
    have e : ∀ l : Fin m, (if i ≤ (l : Nat) then W' l j * W' l j else 0) = (if i ≤ (l : Nat) then W1 l j * W1 l j else 0)
        - 2 * t * (∑ l : Fin m, v l * W1 l j) * (v l * W1 l j) + t * t * (∑ l : Fin m, v l * W1 l j) ^ 2 * (v l * v l) := by
      intro l
      split_ifs with h1
      · rw [hW']; ring
      · rw [v0 l (by omega)]; ring
    unfold tail
    simp only [e, Finset.sum_add_distrib, Finset.sum_sub_distrib, ← Finset.mul_sum]
    linear_combination (∑ l : Fin m, v l * W1 l j) ^ 2 * vt
  have hWkz : ∀ r, k < r → r < m → W' r k = 0 := vz
  refine ⟨V', tau', W', fun j => p (sw k c j), ?_⟩
  constructor
  · show (reflProd m V' tau' k * H).transpose * (reflProd m V' tau' k * H) = 1
    rw [hprod, Matrix.transpose_mul, Matrix.mul_assoc, ← Matrix.mul_assoc _ (reflProd m V tau k), h.orth, Matrix.one_mul, hHs, hHH]
  · intro r j
    show ((reflProd m V' tau' k * H) * asM m n W') r j = _
    rw [hW'e, hprod, Matrix.mul_assoc, ← Matrix.mul_assoc H, hHH, Matrix.one_mul]
    have := h.prod r ⟨sw k c j, sw_lt hkn hcn j.2⟩
    rw [← this, Matrix.mul_apply, Matrix.mul_apply]
    rfl
  · intro j hj r hjr hr
    rcases Nat.lt_succ_iff_lt_or_eq.mp hj with h1 | h1
    · rw [hlow j h1]; exact h.zero j h1 r hjr hr
    · subst h1; exact hWkz r hjr hr
  · intro j hj; exact h.bound _ (sw_lt hkn hcn hj)
  · intro j j' hj hj' e; exact sw_inj (h.inj _ _ (sw_lt hkn hcn hj) (sw_lt hkn hcn hj') e)
  · intro hp j hj
    have := hcp hp
    subst this
    rw [h.fixed hp _ (sw_lt hkn hkn hj)]
    unfold sw
    split_ifs <;> omega
  · intro hp i hi j hij hj
    rcases Nat.lt_succ_iff_lt_or_eq.mp hi with h1 | h1
    · rw [htail i j h1.le, hlow i h1]
      have : tail m W1 i j = tail m W i (sw k c j) := rfl
      rw [this]
      refine h.free hp i h1 _ ?_ (sw_lt hkn hcn hj)
      rcases lt_or_ge j k with h2 | h2
      · rw [sw_low hkc h2]; exact hij
      · have := sw_ge hkc h2; omega
    · subst h1
      have e : tail m W' i i = W' i i * W' i i := by
        unfold tail
        rw [Finset.sum_eq_single (⟨i, hkm⟩ : Fin m)]
        · simp
        · intro b _ hb
          split_ifs with h3
          · have : i < (b : Nat) := lt_of_le_of_ne h3 (fun e => hb (Fin.ext e.symm))
            rw [hWkz b this b.2, mul_zero]
          · rfl
        · intro h; exact absurd (Finset.mem_univ _) h
      rw [← e, htail i j (le_refl _), htail i i (le_refl _)]
      have e1 : ∀ j, tail m W1 i j = tail m W i (sw i c j) := fun _ => rfl
      rw [e1, e1, show sw i c i = c by simp [sw]]
      exact hmax hp _ (sw_ge hkc hij) (sw_lt hkn hcn hj)

theorem exists_inv (m n : Nat) (A : Mat ℝ) (piv : Bool) (k : Nat) (hk : k ≤ min m n) : ∃ V tau W p, Inv m n A piv k V tau W p := by
  induction k with
  | zero =>
    refine ⟨fun _ _ => 0, fun _ => 0, A, fun j => j, ?_⟩
    constructor
    · simp [reflProd]
    · intro r j; simp [reflProd]
    · intro j hj; omega
    · intro j hj; exact hj
    · intro j j' _ _ e; exact e
    · intro _ j _; rfl
    · intro _ i hi; omega
  | succ k ih =>
    obtain ⟨V, tau, W, p, h⟩ := ih (by omega)
    exact exists_step m n A piv k (by omega) (by omega) V tau W p h

/-- the result that the contract asks for exists -/
theorem exists_geqp3 (m n : Nat) (A : Buf ℝ) (jpvt : Nat → Nat) : ∃ (a : Buf ℝ) (jp : Nat → Nat) (tau : Buf ℝ),
    (reflProd m (fview m a) tau (min m n)).transpose * reflProd m (fview m a) tau (min m n) = 1 ∧
    (∀ j, j < n → 1 ≤ jp j ∧ jp j ≤ n) ∧ (∀ j j', j < n → j' < n → jp j = jp j' → j = j') ∧
    (∀ r : Fin m, ∀ j : Fin n, (reflProd m (fview m a) tau (min m n) * upperTrap m n (fview m a)) r j = fview m A r (jp j - 1)) ∧
    ((∀ j, j < n → jpvt j ≠ 0) → ∀ j, j < n → jp j = j + 1) ∧
    ((∀ j, j < n → jpvt j = 0) → ∀ i j, i ≤ j → j < m → j < n → |fview m a j j| ≤ |fview m a i i|) := by
  classical
  obtain ⟨V, tau, W, p, h⟩ := exists_inv m n (fview m A) (decide (∀ j, j < n → jpvt j = 0)) (min m n) (le_refl _)
  set X : Mat ℝ := fun r c => if r ≤ c then W r c else V r c with hX
  have hf : ∀ r c, r < m → fview m (packCol m X) r c = X r c := by
    intro r c hr
    simp only [fview, packCol]
    rw [Nat.mul_comm c m, Nat.mul_add_mod, Nat.mod_eq_of_lt hr, Nat.mul_add_div (by omega), Nat.div_eq_of_lt hr, Nat.add_zero]
  have e1 : reflProd m (fview m (packCol m X)) tau (min m n) = reflProd m V tau (min m n) := by
    apply reflProd_congr
    · intro i _ r hr hrm
      rw [hf r i hrm, hX]
      dsimp only
      rw [if_neg (by omega)]
    · intro _ _; rfl
  have e2 : upperTrap m n (fview m (packCol m X)) = asM m n W := by
    ext r c
    simp only [upperTrap, Matrix.of_apply, asM_apply]
    split_ifs with h1
    · rw [hf r c r.2, hX]
      dsimp only
      rw [if_pos h1]
    · have := r.2
      have := c.2
      exact (h.zero c (by omega) r (by omega) r.2).symm
  refine ⟨packCol m X, fun j => p j + 1, tau, ?_, ?_, ?_, ?_, ?_, ?_⟩
  · rw [e1]; exact h.orth
  · intro j hj; have := h.bound j hj; dsimp only; omega
  · intro j j' hj hj' e; exact h.inj j j' hj hj' (by dsimp only at e; omega)
  · intro r j; rw [e1, e2]; exact h.prod r j
  · intro hne j hj
    dsimp only
    rw [h.fixed ?_ j hj]
    rw [decide_eq_false_iff_not]
    intro hall; exact hne j hj (hall j hj)
  · intro hz i j hij hjm hjn
    rw [hf j j hjm, hf i i (by omega), hX]
    dsimp only
    rw [if_pos (le_refl _), if_pos (le_refl _), ← sq_le_sq]
    have h1 := h.free (decide_eq_true hz) i (by omega) j hij hjn
    have h2 : W j j * W j j ≤ tail m W i j := by
      unfold tail
      have := Finset.single_le_sum (f := fun l : Fin m => if i ≤ (l : Nat) then W l j * W l j else 0)
        (fun l _ => by split_ifs; exact mul_self_nonneg _; exact le_refl _) (Finset.mem_univ (⟨j, hjm⟩ : Fin m))
      simpa [hij] using this
    nlinarith

/-- **C57** the contract can be met. -/
theorem c57_contract_satisfiable : ∃ lp : Lapack, LapackOK lp := by
  choose a jp tau h1 h2 h3 h4 h5 h6 using exists_geqp3
  refine ⟨⟨fun m n A _ jpvt => (a m n A jpvt, jp m n A jpvt, tau m n A jpvt),
    fun m _ k A _ tau => packCol m (fun r c => if h : r < m ∧ c < m then reflProd m (fview m A) tau k ⟨r, h.1⟩ ⟨c, h.2⟩ else 0)⟩, ?_⟩
  constructor
  · intro m n A jpvt a' jp' tau' e
    simp only [Prod.mk.injEq] at e
    obtain ⟨rfl, rfl, rfl⟩ := e
    exact ⟨h1 m n A jpvt, h2 m n A jpvt, h3 m n A jpvt, h4 m n A jpvt⟩
  · intro m n A jpvt; exact h5 m n A jpvt
  · intro m n A jpvt; exact h6 m n A jpvt
  · intro k A tau
    dsimp only
    rw [fview_packCol]
    ext r c
    simp

end
end TooN.QRLapack
