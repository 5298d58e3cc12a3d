import Verif.Model.QRF
import Verif.Proof.QR
import Verif.Proof.Float
import Verif.Props.FloatOps
import Mathlib.Analysis.InnerProductSpace.PiL2
/-! # Householder QR in rounded arithmetic: proofs -/
set_option linter.unusedSectionVars false
namespace TooN.QRF
open Finset

/-! ## Euclidean norm of real vectors -/

/-- Euclidean norm -/
noncomputable def nf {R : Nat} (v : Fin R → ℝ) : ℝ := Real.sqrt (∑ i, v i ^ 2)

section norms
variable {R : Nat}

theorem nf_eq (v : Fin R → ℝ) : nf v = ‖(WithLp.toLp 2 v : EuclideanSpace ℝ (Fin R))‖ := by
  rw [EuclideanSpace.norm_eq, nf]
  congr 1
  exact sum_congr rfl fun i _ => by rw [Real.norm_eq_abs, sq_abs]

theorem nf_nonneg (v : Fin R → ℝ) : 0 ≤ nf v := Real.sqrt_nonneg _

theorem nf_sq (v : Fin R → ℝ) : nf v ^ 2 = ∑ i, v i ^ 2 := Real.sq_sqrt (sum_nonneg fun _ _ => sq_nonneg _)

theorem nf_add (v w : Fin R → ℝ) : nf (v + w) ≤ nf v + nf w := by
  rw [nf_eq, nf_eq, nf_eq]
  exact norm_add_le (WithLp.toLp 2 v : EuclideanSpace ℝ (Fin R)) (WithLp.toLp 2 w)

theorem nf_mono {v w : Fin R → ℝ} (h : ∀ i, |v i| ≤ |w i|) : nf v ≤ nf w :=
  Real.sqrt_le_sqrt (sum_le_sum fun i _ => sq_le_sq.2 (h i))

theorem nf_smul (a : ℝ) (v : Fin R → ℝ) : nf (fun i => a * v i) = |a| * nf v := by
  unfold nf
  rw [← Real.sqrt_sq (abs_nonneg a), ← Real.sqrt_mul (sq_nonneg _), mul_sum]
  congr 1
  exact sum_congr rfl fun i _ => by rw [sq_abs]; ring

theorem nf_abs (v : Fin R → ℝ) : nf (fun i => |v i|) = nf v := by
  unfold nf; simp only [sq_abs]

theorem cs (v w : Fin R → ℝ) : ∑ i, |v i| * |w i| ≤ nf v * nf w := by
  have := Real.sum_mul_le_sqrt_mul_sqrt univ (fun i => |v i|) (fun i => |w i|)
  simp only [sq_abs] at this
  exact this

theorem cs' (v w : Fin R → ℝ) : |∑ i, v i * w i| ≤ nf v * nf w :=
  (abs_sum_le_sum_abs _ _).trans ((sum_le_sum fun i _ => (abs_mul _ _).le).trans (cs v w))

theorem comp_le_nf (v : Fin R → ℝ) (i : Fin R) : |v i| ≤ nf v := by
  refine Real.abs_le_sqrt ?_
  exact single_le_sum (f := fun i => v i ^ 2) (fun i _ => sq_nonneg _) (mem_univ i)

/-- orthogonal matrices keep the norm -/
theorem nf_orth (P : Matrix (Fin R) (Fin R) ℝ) (h : P.transpose * P = 1) (v : Fin R → ℝ) : nf (P.mulVec v) = nf v := by
  unfold nf
  congr 1
  have e : ∀ w : Fin R → ℝ, ∑ i, w i ^ 2 = dotProduct w w := fun w => sum_congr rfl fun i _ => pow_two _
  rw [e, e, Matrix.dotProduct_mulVec, Matrix.vecMul_mulVec, ← Matrix.mulVec_transpose]
  simp [Matrix.transpose_mul, h]

/-- the reflection keeps the norm -/
theorem nf_house (w c : Fin R → ℝ) (H : ℝ) (hH : H ≠ 0) (hw : ∑ i, w i * w i = 2 * H) :
    nf (fun i => c i - w i * ((∑ j, w j * c j) / H)) = nf c := by
  unfold nf
  congr 1
  set d := ∑ j, w j * c j with hd
  have : ∀ i, (c i - w i * (d / H)) ^ 2 = c i ^ 2 - 2 * (d / H) * (w i * c i) + (d / H) ^ 2 * (w i * w i) := fun i => by ring
  rw [sum_congr rfl fun i _ => this i, sum_add_distrib, sum_sub_distrib, ← mul_sum, ← mul_sum, hw, ← hd]
  field_simp
  ring

end norms

/-! ## One column of one reflection -/

section core
variable {R : Nat} {w w' c c' p : Fin R → ℝ} {H H' va d u γ η h : ℝ}

/-- the error in `va` -/
theorem va_err (hH : 0 < H) (hw' : ∀ i, |w' i - w i| ≤ η * |w i|)
    (hη : 0 ≤ η) (hγ : 0 ≤ γ)
    (hd : |d - ∑ i, w' i * c i| ≤ γ * ∑ i, |w' i * c i|)
    (hva : ∃ f, |f - 1| ≤ h ∧ va = d / H * f) :
    |va - (∑ i, w i * c i) / H| ≤ ((γ * (1 + η) + η) * (1 + h) + h) * (nf w * nf c / H) := by
  obtain ⟨f, hf, rfl⟩ := hva
  have hN := mul_nonneg (nf_nonneg w) (nf_nonneg c)
  have h1 : |∑ i, w' i * c i - ∑ i, w i * c i| ≤ η * (nf w * nf c) := by
    rw [← sum_sub_distrib]
    refine (abs_sum_le_sum_abs _ _).trans ?_
    refine le_trans ?_ (mul_le_mul_of_nonneg_left (cs w c) hη)
    rw [mul_sum]
    refine sum_le_sum fun i _ => ?_
    rw [← sub_mul, abs_mul]
    have := mul_le_mul_of_nonneg_right (hw' i) (abs_nonneg (c i))
    linarith
  have h2 : ∑ i, |w' i * c i| ≤ (1 + η) * (nf w * nf c) := by
    refine le_trans ?_ (mul_le_mul_of_nonneg_left (cs w c) (by linarith))
    rw [mul_sum]
    refine sum_le_sum fun i _ => ?_
    have h3 := abs_add_le (w' i - w i) (w i)
    rw [sub_add_cancel] at h3
    rw [abs_mul]
    have := mul_le_mul_of_nonneg_right (h3.trans (add_le_add (hw' i) le_rfl)) (abs_nonneg (c i))
    linarith
  set s := ∑ i, w i * c i with hs
  have hd2 : |d - s| ≤ (γ * (1 + η) + η) * (nf w * nf c) := by
    have h4 := abs_add_le (d - ∑ i, w' i * c i) (∑ i, w' i * c i - s)
    rw [sub_add_sub_cancel] at h4
    have := mul_le_mul_of_nonneg_left h2 hγ
    linarith
  have hs2 : |s| ≤ nf w * nf c := cs' w c
  have hh : 0 ≤ h := (abs_nonneg _).trans hf
  have e : d / H * f - s / H = ((d - s) * f + s * (f - 1)) / H := by field_simp; ring
  rw [e, abs_div, abs_of_pos hH, ← mul_div_assoc]
  refine div_le_div_of_nonneg_right ?_ hH.le
  have hf2 : |f| ≤ 1 + h := by
    have := abs_add_le (f - 1) 1
    rw [sub_add_cancel, abs_one] at this; linarith
  refine (abs_add_le _ _).trans ?_
  rw [abs_mul, abs_mul]
  have h5 := mul_le_mul hd2 hf2 (abs_nonneg _) (mul_nonneg (by positivity) hN)
  have h6 := mul_le_mul hs2 hf (abs_nonneg _) hN
  linarith

/-- the error in the new column -/
theorem col_err {εv : ℝ} (hH : 0 < H) (hwH : ∑ i, w i * w i = 2 * H) (hw' : ∀ i, |w' i - w i| ≤ η * |w i|)
    (hη : 0 ≤ η) (hu : 0 ≤ u) (hεv : 0 ≤ εv)
    (hva : |va - (∑ i, w i * c i) / H| ≤ εv * (nf w * nf c / H))
    (hp : ∀ i, |p i - w' i * va| ≤ u * |w' i * va|)
    (hc : ∀ i, |c' i - (c i - p i)| ≤ u * |c i - p i|) :
    nf (fun i => c' i - (c i - w i * ((∑ j, w j * c j) / H))) ≤
      (2 * (1 + u) * (u * (1 + η) * (1 + εv) + η * (1 + εv) + εv) + u) * nf c := by
  set v := (∑ j, w j * c j) / H with hv
  set B := nf w * nf c / H with hB
  have hB0 : 0 ≤ B := div_nonneg (mul_nonneg (nf_nonneg _) (nf_nonneg _)) hH.le
  have hvB : |v| ≤ B := by
    rw [hv, abs_div, abs_of_pos hH]; exact div_le_div_of_nonneg_right (cs' w c) hH.le
  have hvaB : |va| ≤ (1 + εv) * B := by
    have := abs_add_le (va - v) v
    rw [sub_add_cancel] at this; linarith
  set εw := u * (1 + η) * (1 + εv) + η * (1 + εv) + εv with hεw
  have hεw0 : 0 ≤ εw := by positivity
  have hpw : ∀ i, |p i - w i * v| ≤ εw * B * |w i| := by
    intro i
    have a1 : |w' i| ≤ (1 + η) * |w i| := by
      have := abs_add_le (w' i - w i) (w i)
      rw [sub_add_cancel] at this
      linarith [hw' i]
    have a0 := abs_nonneg (w i)
    have a2 : |w' i * va| ≤ (1 + η) * |w i| * ((1 + εv) * B) := by
      rw [abs_mul]; exact mul_le_mul a1 hvaB (abs_nonneg _) (by positivity)
    have a3 : |(w' i - w i) * va| ≤ η * |w i| * ((1 + εv) * B) := by
      rw [abs_mul]; exact mul_le_mul (hw' i) hvaB (abs_nonneg _) (by positivity)
    have a4 : |w i * (va - v)| ≤ |w i| * (εv * B) := by
      rw [abs_mul]; exact mul_le_mul_of_nonneg_left hva a0
    have e : p i - w i * v = (p i - w' i * va) + ((w' i - w i) * va + w i * (va - v)) := by ring
    rw [e]
    have a5 := (hp i).trans (mul_le_mul_of_nonneg_left a2 hu)
    refine (abs_add_le _ _).trans ((add_le_add a5 ((abs_add_le _ _).trans (add_le_add a3 a4))).trans (le_of_eq ?_))
    rw [hεw]; ring
  have hel : ∀ i, |c' i - (c i - w i * v)| ≤ abs ((1 + u) * εw * B * |w i| + u * |c i - w i * v|) := by
    intro i
    have e : c' i - (c i - w i * v) = (c' i - (c i - p i)) - (p i - w i * v) := by ring
    have h1 := abs_sub (c' i - (c i - p i)) (p i - w i * v)
    rw [← e] at h1
    have h2 : |c i - p i| ≤ |c i - w i * v| + |p i - w i * v| := by
      have : c i - p i = (c i - w i * v) - (p i - w i * v) := by ring
      rw [this]; exact abs_sub _ _
    have h3 := (hc i).trans (mul_le_mul_of_nonneg_left h2 hu)
    have h4 := hpw i
    have h5 := mul_le_mul_of_nonneg_left h4 hu
    have h6 : 0 ≤ (1 + u) * εw * B * |w i| := mul_nonneg (mul_nonneg (mul_nonneg (by linarith) hεw0) hB0) (abs_nonneg _)
    rw [abs_of_nonneg (add_nonneg h6 (mul_nonneg hu (abs_nonneg _)))]
    have e2 : (1 + u) * εw * B * |w i| = εw * B * |w i| + u * (εw * B * |w i|) := by ring
    rw [e2]
    linarith
  refine (nf_mono hel).trans ((nf_add (fun i => ((1 + u) * εw * B) * |w i|) (fun i => u * |c i - w i * v|)).trans ?_)
  rw [nf_smul, nf_smul, nf_abs, nf_abs (fun i => c i - w i * v), nf_house w c H hH.ne' hwH,
    abs_of_nonneg (mul_nonneg (mul_nonneg (by linarith) hεw0) hB0), abs_of_nonneg hu]
  have hww : nf w * nf w = 2 * H := by
    rw [← pow_two, nf_sq, ← hwH]; exact sum_congr rfl fun i _ => pow_two _
  have : (1 + u) * εw * B * nf w = 2 * (1 + u) * εw * nf c := by
    rw [hB]
    have : (1 + u) * εw * (nf w * nf c / H) * nf w = (1 + u) * εw * nf c * (nf w * nf w / H) := by ring
    rw [this, hww]
    field_simp
  rw [this]
  linarith

end core

/-! ## The model, element by element -/

section model
variable {K : Type _} [Zero K] [One K] [Add K] [Sub K] [Mul K] [Div K] [Neg K] [LT K] [DecidableLT K]

theorem premul_apply (sz nc r0 c0 : Nat) (v : Vec K) (s : K) (A : Mat K) (r c : Nat) :
    premul sz nc r0 c0 v s A r c =
      if (r0 ≤ r ∧ r < r0 + sz) ∧ (c0 ≤ c ∧ c < c0 + nc) then
        A r c - v (r - r0) * (Ops.dot sz v (fun i => A (r0 + i) c) / s) else A r c := by
  unfold premul
  have col : ∀ (k q : Nat) (x : K) (B : Mat K) (r c : Nat),
      forN k (fun row A => Mat.set A (r0 + row) q (A (r0 + row) q - v row * x)) B r c =
        if (r0 ≤ r ∧ r < r0 + k) ∧ c = q then B r c - v (r - r0) * x else B r c := by
    intro k q x B
    induction k with
    | zero => intro r c; rw [forN_zero, if_neg (by omega)]
    | succ k ih =>
      intro r c
      rw [forN_succ]
      by_cases h : r = r0 + k ∧ c = q
      · obtain ⟨rfl, rfl⟩ := h
        rw [Mat.set_self, if_pos (by omega), ih, if_neg (by omega)]
        congr 3; omega
      · rw [Mat.set_ne _ _ _ _ _ _ h, ih]
        by_cases h2 : (r0 ≤ r ∧ r < r0 + k) ∧ c = q
        · rw [if_pos h2, if_pos (by omega)]
        · rw [if_neg h2, if_neg (by omega)]
  induction nc generalizing r c with
  | zero => rw [forN_zero, if_neg (by omega)]
  | succ k ih =>
    rw [forN_succ]
    set D := forN k (fun col A =>
      let va := Ops.dot sz v (fun row => A (r0 + row) (c0 + col)) / s
      forN sz (fun row A => Mat.set A (r0 + row) (c0 + col) (A (r0 + row) (c0 + col) - v row * va)) A) A
    have hD : ∀ r, D r (c0 + k) = A r (c0 + k) := by intro r; rw [ih, if_neg (by omega)]
    show forN sz (fun row B => Mat.set B (r0 + row) (c0 + k) (B (r0 + row) (c0 + k) - v row *
      (Ops.dot sz v (fun row => D (r0 + row) (c0 + k)) / s))) D r c = _
    rw [col]
    simp only [hD]
    by_cases h : (r0 ≤ r ∧ r < r0 + sz) ∧ c = c0 + k
    · obtain ⟨h1, rfl⟩ := h
      rw [if_pos ⟨h1, rfl⟩, if_pos (by omega), hD]
    · rw [if_neg h, ih]
      by_cases h2 : (r0 ≤ r ∧ r < r0 + sz) ∧ (c0 ≤ c ∧ c < c0 + k)
      · rw [if_pos h2, if_pos (by omega)]
      · rw [if_neg h2, if_neg (by omega)]

theorem zeroCol (sz n : Nat) (hsz : 1 ≤ sz) (m : Mat K) (r c : Nat) :
    forRange 1 sz (fun i m => Mat.set m (n + i) n 0) m r c =
      if c = n ∧ n < r ∧ r < n + sz then 0 else m r c := by
  refine forRange_inv (fun k (D : Mat K) => ∀ r c, D r c = if c = n ∧ n < r ∧ r < n + k then 0 else m r c)
    1 sz hsz _ m ?_ ?_ r c
  · intro r c; rw [if_neg (by omega)]
  · intro k D h1 h2 ih r c
    by_cases h : r = n + k ∧ c = n
    · obtain ⟨rfl, rfl⟩ := h
      rw [Mat.set_self, if_pos (by omega)]
    · rw [Mat.set_ne _ _ _ _ _ _ h, ih]
      by_cases h2 : c = n ∧ n < r ∧ r < n + k
      · rw [if_pos h2, if_pos (by omega)]
      · rw [if_neg h2, if_neg (by omega)]

/-- the new `m` -/
theorem stepRun_m (sqrt : K → K) (R C n : Nat) (hn : n < R) (st : St K) (r c : Nat) (hr : r < R) (hc : c < C) :
    (stepRun sqrt C R n st).m r c =
      if c < n then st.m r c
      else if c = n then (if r < n then st.m r c else if r = n then pivot sqrt R n st.m else 0)
      else if r < n then st.m r c
      else st.m r c - reflect sqrt R n st.m r n *
        (Ops.dot (R - n) (fun i => reflect sqrt R n st.m (n + i) n) (fun i => st.m (n + i) c) / heightOf sqrt R n st.m) := by
  show forRange 1 (R - n) (fun i m => Mat.set m (n + i) n 0) (Mat.set (premul (R - n) (C - n - 1) n (n + 1)
    (fun i => reflect sqrt R n st.m (n + i) n) (heightOf sqrt R n st.m) (reflect sqrt R n st.m)) n n (pivot sqrt R n st.m)) r c = _
  have hne : ∀ r c, ¬ (r = n ∧ c = n) → reflect sqrt R n st.m r c = st.m r c := fun r c h => Mat.set_ne _ _ _ _ _ _ h
  rw [zeroCol _ _ (by omega)]
  rcases Nat.lt_trichotomy c n with h | h | h
  · rw [if_pos h, if_neg (by omega), Mat.set_ne _ _ _ _ _ _ (by omega), premul_apply, if_neg (by omega), hne _ _ (by omega)]
  · subst h
    rw [if_neg (lt_irrefl _), if_pos rfl]
    rcases Nat.lt_trichotomy r c with h | h | h
    · rw [if_pos h, if_neg (by omega), Mat.set_ne _ _ _ _ _ _ (by omega), premul_apply, if_neg (by omega), hne _ _ (by omega)]
    · subst h
      rw [if_neg (lt_irrefl _), if_pos rfl, if_neg (by omega), Mat.set_self]
    · rw [if_pos (show c = c ∧ c < r ∧ r < c + (R - c) by omega), if_neg (show ¬ r < c by omega), if_neg (show ¬ r = c by omega)]
  · rw [if_neg (by omega), if_neg (by omega), if_neg (by omega), Mat.set_ne _ _ _ _ _ _ (by omega), premul_apply]
    by_cases h2 : r < n
    · rw [if_pos h2, if_neg (by omega), hne _ _ (by omega)]
    · rw [if_neg h2, if_pos (by omega), hne _ _ (by omega)]
      have e : (fun i => reflect sqrt R n st.m (n + i) c) = fun i => st.m (n + i) c := funext fun i => hne _ _ (by omega)
      rw [e]
      simp only [show n + (r - n) = r by omega]

/-- the new `Q` -/
theorem stepRun_Q (sqrt : K → K) (R C n : Nat) (st : St K) (r c : Nat) (hr : r < R) (hc : c < R) :
    (stepRun sqrt C R n st).Q r c =
      if r < n then st.Q r c
      else st.Q r c - reflect sqrt R n st.m r n *
        (Ops.dot (R - n) (fun i => reflect sqrt R n st.m (n + i) n) (fun i => st.Q (n + i) c) / heightOf sqrt R n st.m) := by
  show premul (R - n) R n 0 (fun i => reflect sqrt R n st.m (n + i) n) (heightOf sqrt R n st.m) st.Q r c = _
  rw [premul_apply]
  by_cases h2 : r < n
  · rw [if_pos h2, if_neg (by omega)]
  · rw [if_neg h2, if_pos (by omega)]
    simp only [show n + (r - n) = r by omega]

end model

/-! ## One reflection in rounded arithmetic -/

section fl
variable {ρ : Rounding}

/-- bound of the error constants -/
theorem eps_le {u g t : ℝ} (hu : 0 ≤ u) (hug : 5 * u ≤ g) (hg : g ≤ t) (ht : t ≤ 1 / 200) :
    2 * (1 + u) * (u * (1 + t) * (1 + ((g * (1 + t) + t) * (1 + 2.02 * t) + 2.02 * t)) +
      t * (1 + ((g * (1 + t) + t) * (1 + 2.02 * t) + 2.02 * t)) + ((g * (1 + t) + t) * (1 + 2.02 * t) + 2.02 * t)) + u ≤ 11 * t := by
  have ht0 : 0 ≤ t := by linarith
  have hg0 : 0 ≤ g := by linarith
  set εv := (g * (1 + t) + t) * (1 + 2.02 * t) + 2.02 * t with hεv
  have h1 : g * (1 + t) + t ≤ 2.005 * t := by nlinarith
  have h2 : εv ≤ 4.05 * t := by
    have : (g * (1 + t) + t) * (1 + 2.02 * t) ≤ 2.005 * t * (1 + 2.02 * t) := mul_le_mul_of_nonneg_right h1 (by linarith)
    nlinarith
  have h20 : 0 ≤ εv := by positivity
  have h3 : u * (1 + t) * (1 + εv) ≤ 0.21 * t := by
    have a : u * (1 + t) ≤ 0.201 * t := by nlinarith
    have b : u * (1 + t) * (1 + εv) ≤ 0.201 * t * (1 + εv) := mul_le_mul_of_nonneg_right a (by linarith)
    nlinarith
  have h4 : t * (1 + εv) ≤ 1.03 * t := by nlinarith
  have h5 : u * (1 + t) * (1 + εv) + t * (1 + εv) + εv ≤ 5.29 * t := by linarith
  have h50 : 0 ≤ u * (1 + t) * (1 + εv) + t * (1 + εv) + εv := by positivity
  have h6 : (1 + u) * (u * (1 + t) * (1 + εv) + t * (1 + εv) + εv) ≤ 5.3 * t := by
    have : u ≤ 0.001 := by linarith
    nlinarith
  linarith

theorem pivot_val (R n : Nat) (m : Mat (Fl ρ)) :
    ∃ f, Fac ρ.u (R - n + 1) f ∧ (pivot Fl.sqrt R n m).val =
      Real.sqrt (∑ i ∈ range (R - n), (m (n + i) n).val ^ 2) * (if (m n n).val < 0 then -1 else 1) * f := by
  obtain ⟨f, hf, e⟩ := norm_fac (R - n) (fun i => m (n + i) n)
  refine ⟨f, hf, ?_⟩
  have e' : (normFl (R - n) fun i => m (n + i) n).val = (Fl.sqrt (Ops.dot (R - n) (fun i => m (n + i) n) fun i => m (n + i) n)).val := rfl
  have hr := (Fl.sqrt (Ops.dot (R - n) (fun i => m (n + i) n) fun i => m (n + i) n)).repr
  unfold pivot
  rw [Fl.val_mul]
  by_cases h : (m n n).val < 0
  · rw [if_pos h, if_pos ((Fl.lt_def _ _).2 h), Fl.val_neg, Fl.val_one, mul_neg, mul_one, ρ.neg, hr, ← e', e]; ring
  · rw [if_neg h, if_neg (fun h' => h ((Fl.lt_def _ _).1 h')), Fl.val_one, mul_one, hr, ← e', e]; ring


/-- exact reflection vector of column `n` of `M`, zero-extended -/
noncomputable def wex (R n : Nat) (M : Mat ℝ) (α : ℝ) : Fin R → ℝ := fun i => if (i : Nat) < n then 0 else if (i : Nat) = n then M n n - α else M i n

/-- sums over the rows from `n` on -/
theorem sum_from (R n : Nat) (hn : n ≤ R) (f : Nat → ℝ) :
    ∑ i : Fin R, (if (i : Nat) < n then 0 else f i) = ∑ i ∈ range (R - n), f (n + i) := by
  rw [Fin.sum_univ_eq_sum_range (fun i => if i < n then 0 else f i) R]
  have e : R = n + (R - n) := by omega
  conv_lhs => rw [e]
  rw [sum_range_add]
  have h0 : ∑ i ∈ range n, (if i < n then 0 else f i) = 0 :=
    sum_eq_zero fun i hi => if_pos (mem_range.1 hi)
  rw [h0, zero_add]
  exact sum_congr rfl fun i _ => if_neg (by omega)

/-- the condition of step `n`: the column is not nearly a multiple of the unit vector -/
def Cond (κ : ℝ) (R n : Nat) (M : Mat ℝ) : Prop :=
  Real.sqrt (∑ i ∈ range (R - n), M (n + i) n ^ 2) ≤ κ * (Real.sqrt (∑ i ∈ range (R - n), M (n + i) n ^ 2) - |M n n|)

theorem gam_ge {u : ℝ} (h0 : 0 ≤ u) (N : ℕ) (hN : N * u < 1) : N * u ≤ gam u N := by
  unfold gam
  rw [le_div_iff₀ (by linarith)]
  have : 0 ≤ N * u := by positivity
  nlinarith

theorem fac_gam_abs {u : ℝ} (h0 : 0 ≤ u) (h1 : u < 1) {m N : ℕ} {f : ℝ} (hf : Fac u m f) (hmN : m ≤ N) (hN : N * u < 1) :
    |f - 1| ≤ gam u N :=
  (Fac.mono h0 h1 hmN hf).gam h0 h1 hN

set_option maxHeartbeats 1000000 in
/-- one reflection: everything the error analysis needs about `w` -/
theorem reflect_facts (R n : Nat) (hn : n < R - 1) (m : Mat (Fl ρ)) (κ : ℝ) (hκ : 1 ≤ κ)
    (hN : ((R + 3 : ℕ) : ℝ) * ρ.u < 1) (ht : κ * gam ρ.u (R + 3) ≤ 1 / 200)
    (hH : heightOf Fl.sqrt R n m ≠ 0) (hc : Cond κ R n (rmat m)) :
    ∃ α H : ℝ, 0 < H ∧
      α ^ 2 = ∑ i ∈ range (R - n), (m (n + i) n).val ^ 2 ∧
      H = α * α - α * (m n n).val ∧
      |(pivot Fl.sqrt R n m).val - α| ≤ gam ρ.u (R + 3) * |α| ∧
      (∀ i : Fin R, |(if (i : Nat) < n then 0 else (reflect Fl.sqrt R n m i n).val) - wex R n (rmat m) α i| ≤
        κ * gam ρ.u (R + 3) * |wex R n (rmat m) α i|) ∧
      (∀ d : Fl ρ, ∃ f, |f - 1| ≤ 2.02 * (κ * gam ρ.u (R + 3)) ∧ (d / heightOf Fl.sqrt R n m).val = d.val / H * f) := by
  have h0 := ρ.u_nonneg
  have h1 := ρ.u_lt_one
  set g := gam ρ.u (R + 3) with hg
  have hg0 : 0 ≤ g := gam_nonneg h0 h1 hN
  set t := κ * g with htd
  have hgt : g ≤ t := by rw [htd]; nlinarith
  have ht0 : 0 ≤ t := hg0.trans hgt
  obtain ⟨f, hf, ea⟩ := pivot_val R n m
  set S := ∑ i ∈ range (R - n), (m (n + i) n).val ^ 2 with hS
  set σ : ℝ := if (m n n).val < 0 then -1 else 1 with hσ
  have hσ2 : σ * σ = 1 := by rw [hσ]; split <;> norm_num
  have hσa : |σ| = 1 := by rw [hσ]; split <;> norm_num
  have hσx : σ * (m n n).val = |(m n n).val| := by
    rw [hσ]; split
    · rename_i h; rw [abs_of_neg h]; ring
    · rename_i h; rw [abs_of_nonneg (not_lt.1 h)]; ring
  set α := Real.sqrt S * σ with hα
  have hS0 : 0 ≤ S := sum_nonneg fun _ _ => sq_nonneg _
  have hα2 : α ^ 2 = S := by
    have : α ^ 2 = (Real.sqrt S) ^ 2 * (σ * σ) := by rw [hα]; ring
    rw [this, hσ2, mul_one, Real.sq_sqrt hS0]
  have hαa : |α| = Real.sqrt S := by rw [hα, abs_mul, hσa, mul_one, abs_of_nonneg (Real.sqrt_nonneg _)]
  have hαx : α * (m n n).val = Real.sqrt S * |(m n n).val| := by rw [hα, mul_assoc, hσx]
  set x0 := (m n n).val with hx0
  have hc' : Real.sqrt S ≤ κ * (Real.sqrt S - |x0|) := hc
  -- the float pivot and reflection vector
  have hr0 : (reflect Fl.sqrt R n m n n).val = ρ.rnd (x0 - (pivot Fl.sqrt R n m).val) := by
    unfold reflect; rw [Mat.set_self, Fl.val_sub]
  have hHv : (heightOf Fl.sqrt R n m).val = ρ.rnd (-(pivot Fl.sqrt R n m).val * (reflect Fl.sqrt R n m n n).val) := by
    unfold heightOf; rw [Fl.val_mul, Fl.val_neg]
  have hSpos : 0 < Real.sqrt S := by
    refine lt_of_le_of_ne (Real.sqrt_nonneg _) fun h => hH ?_
    have hα0 : α = 0 := by rw [hα, ← h, zero_mul]
    rw [Fl.eq_zero_iff, hHv, ea, hα0]
    simp [Fl.rnd_zero]
  have hκ0 : 0 < κ := by linarith
  have hu0 : 0 < Real.sqrt S - |x0| := by
    by_contra hcon
    push Not at hcon
    have := mul_nonpos_of_nonneg_of_nonpos hκ0.le hcon
    linarith
  set u0 := x0 - α with hu0d
  have hu0a : |u0| = Real.sqrt S - |x0| := by
    have e : σ * u0 = |x0| - Real.sqrt S := by
      rw [hu0d, mul_sub, hσx, hα]
      have : σ * (Real.sqrt S * σ) = Real.sqrt S * (σ * σ) := by ring
      rw [this, hσ2, mul_one]
    have : |u0| = |σ * u0| := by rw [abs_mul, hσa, one_mul]
    rw [this, e, abs_sub_comm, abs_of_pos hu0]
  have hu0ne : u0 ≠ 0 := fun h => by rw [h, abs_zero] at hu0a; linarith
  have hακ : |α| ≤ κ * |u0| := by rw [hαa, hu0a]; exact hc'
  obtain ⟨f4, hf4, e4⟩ := rnd_fac ρ (x0 - (pivot Fl.sqrt R n m).val)
  have hx0α : |x0| ≤ |α| := by rw [hαa]; linarith
  have hruv : |(reflect Fl.sqrt R n m n n).val - u0| ≤ t * |u0| := by
    rw [hr0, e4, ea]
    have e : (x0 - α * f) * f4 - u0 = x0 * (f4 - 1) - α * (f * f4 - 1) := by rw [hu0d]; ring
    rw [e]
    have b1 : |f4 - 1| ≤ gam ρ.u 1 := hf4.gam h0 h1 (by push_cast; linarith)
    have hN2 : ((R + 2 : ℕ) : ℝ) * ρ.u < 1 := by push_cast at hN ⊢; nlinarith
    have b2 : |f * f4 - 1| ≤ gam ρ.u (R + 2) := fac_gam_abs h0 h1 (hf.mul h0 h1 hf4) (by omega) hN2
    have b3 : gam ρ.u 1 + gam ρ.u (R + 2) ≤ g := by
      have := gam_add h0 h1 (a := 1) (b := R + 2) (by rw [show 1 + (R + 2) = R + 3 by omega]; exact hN)
      rwa [show 1 + (R + 2) = R + 3 by omega] at this
    have b4 : |x0 * (f4 - 1)| ≤ |α| * gam ρ.u 1 := by
      rw [abs_mul]; exact mul_le_mul hx0α b1 (abs_nonneg _) (abs_nonneg _)
    have b5 : |α * (f * f4 - 1)| ≤ |α| * gam ρ.u (R + 2) := by
      rw [abs_mul]; exact mul_le_mul_of_nonneg_left b2 (abs_nonneg _)
    have b6 := abs_sub (x0 * (f4 - 1)) (α * (f * f4 - 1))
    have b7 : |α| * (gam ρ.u 1 + gam ρ.u (R + 2)) ≤ |α| * g := mul_le_mul_of_nonneg_left b3 (abs_nonneg _)
    have b8 : |α| * g ≤ κ * |u0| * g := mul_le_mul_of_nonneg_right hακ hg0
    have : t * |u0| = κ * |u0| * g := by rw [htd]; ring
    rw [this]
    linarith
  refine ⟨α, α * α - α * x0, ?_, hα2, rfl, ?_, ?_, ?_⟩
  · have : α * α - α * x0 = Real.sqrt S * (Real.sqrt S - |x0|) := by
      rw [← pow_two, hα2, hαx, mul_sub, Real.mul_self_sqrt hS0]
    rw [this]; positivity
  · rw [ea]
    have e : α * f - α = α * (f - 1) := by ring
    rw [e, abs_mul, mul_comm]
    exact mul_le_mul_of_nonneg_right (fac_gam_abs h0 h1 hf (by omega) hN) (abs_nonneg _)
  · intro i
    unfold wex
    by_cases hi : (i : Nat) < n
    · rw [if_pos hi, if_pos hi]; simp
    · rw [if_neg hi, if_neg hi]
      by_cases hi2 : (i : Nat) = n
      · rw [if_pos hi2, hi2]; exact hruv
      · rw [if_neg hi2]
        have : reflect Fl.sqrt R n m i n = m i n := Mat.set_ne _ _ _ _ _ _ (by omega)
        rw [this]
        have e : (m i n).val - rmat m i n = 0 := sub_self _
        rw [e, abs_zero]
        exact mul_nonneg ht0 (abs_nonneg _)
  · intro d
    obtain ⟨f2, hf2, e2⟩ := rnd_fac ρ (-(pivot Fl.sqrt R n m).val * (reflect Fl.sqrt R n m n n).val)
    obtain ⟨f3, hf3, e3⟩ := Fl.div_fac d (heightOf Fl.sqrt R n m)
    set e1 := ((reflect Fl.sqrt R n m n n).val - u0) / u0 with he1
    have he1a : |e1| ≤ t := by
      rw [he1, abs_div, div_le_iff₀ (abs_pos.2 hu0ne)]; exact hruv
    have hre : (reflect Fl.sqrt R n m n n).val = u0 * (1 + e1) := by rw [he1]; field_simp; ring
    have hf0 := hf.pos h0 h1
    have hf20 := hf2.pos h0 h1
    have he10 : 0 < 1 + e1 := by have := (abs_le.1 he1a).1; linarith
    refine ⟨f3 / (f * f2) * (1 + e1)⁻¹, ?_, ?_⟩
    · have b1 : |f3 / (f * f2) - 1| ≤ g := fac_gam_abs h0 h1 (hf3.div h0 h1 (hf.mul h0 h1 hf2)) (by omega) hN
      have b2 : |(1 + e1)⁻¹ - 1| ≤ t / (1 - t) := by
        have : (1 + e1)⁻¹ - 1 = -e1 / (1 + e1) := by field_simp; ring
        rw [this, abs_div, abs_neg, abs_of_pos he10]
        exact div_le_div₀ ht0 he1a (by linarith) (by linarith [(abs_le.1 he1a).1])
      have b3 : t / (1 - t) ≤ 1.006 * t := by
        rw [div_le_iff₀ (by linarith)]; nlinarith
      set F := f3 / (f * f2)
      have e : F * (1 + e1)⁻¹ - 1 = (F - 1) + F * ((1 + e1)⁻¹ - 1) := by ring
      have b4 : |F| ≤ 1 + g := by
        have := abs_add_le (F - 1) 1
        rw [sub_add_cancel, abs_one] at this; linarith
      rw [e]
      refine (abs_add_le _ _).trans ?_
      rw [abs_mul]
      have b5 := mul_le_mul b4 (b2.trans b3) (abs_nonneg _) (by linarith)
      nlinarith
    · rw [e3, hHv, e2, ea, hre]
      have hαne : α ≠ 0 := fun h => by rw [h, abs_zero] at hαa; linarith
      have : α * α - α * x0 = -(α * u0) := by rw [hu0d]; ring
      rw [this]
      have := he10.ne'
      have := hf0.ne'
      have := hf20.ne'
      field_simp


/-- column `c` of a real matrix -/
def colOf (R : Nat) (M : Mat ℝ) (c : Nat) : Fin R → ℝ := fun i => M i c

/-- the Householder matrix -/
noncomputable def house (R : Nat) (w : Fin R → ℝ) (H : ℝ) : Matrix (Fin R) (Fin R) ℝ := 1 - Matrix.of fun i j => w i * w j / H

theorem house_mulVec (R : Nat) (w c : Fin R → ℝ) (H : ℝ) :
    (house R w H).mulVec c = fun i => c i - w i * ((∑ j, w j * c j) / H) := by
  unfold house
  rw [Matrix.sub_mulVec, Matrix.one_mulVec]
  funext i
  show c i - ∑ j, w i * w j / H * c j = _
  congr 1
  rw [sum_div, mul_sum]
  exact sum_congr rfl fun j _ => by ring

theorem house_orth (R : Nat) (w : Fin R → ℝ) (H : ℝ) (hH : H ≠ 0) (hw : ∑ i, w i * w i = 2 * H) :
    (house R w H).transpose * house R w H = 1 := by
  set w' : Vec ℝ := fun i => if h : i < R then w ⟨i, h⟩ else 0 with hw'
  have e : ∀ i : Fin R, w' i = w i := fun i => by rw [hw']; simp [i.2]
  have h1 := QR.house_orth R w' H hH (by
    rw [sum_range_fin, ← hw]; exact sum_congr rfl fun i _ => by rw [e])
  have e2 : (1 - Matrix.of fun i j : Fin R => w' i * w' j / H) = house R w H := by
    unfold house; congr 1; ext i j; simp only [Matrix.of_apply, e]
  rw [e2] at h1
  exact h1

set_option maxHeartbeats 1000000 in
/-- one reflection applied to the columns -/
theorem step_err (R C n : Nat) (hn : n < R - 1) (s : St (Fl ρ)) (κ : ℝ) (hκ : 1 ≤ κ)
    (hN : ((R + 3 : ℕ) : ℝ) * ρ.u < 1) (ht : κ * gam ρ.u (R + 3) ≤ 1 / 200)
    (hH : heightOf Fl.sqrt R n s.m ≠ 0) (hc : Cond κ R n (rmat s.m))
    (hz : ∀ r c, c < n → c < r → r < R → (s.m r c).val = 0) :
    ∃ P : Matrix (Fin R) (Fin R) ℝ, P.transpose * P = 1 ∧
      (∀ c < C, nf (colOf R (rmat (stepRun Fl.sqrt C R n s).m) c - P.mulVec (colOf R (rmat s.m) c)) ≤
        11 * (κ * gam ρ.u (R + 3)) * nf (colOf R (rmat s.m) c)) ∧
      (∀ c < R, nf (colOf R (rmat (stepRun Fl.sqrt C R n s).Q) c - P.mulVec (colOf R (rmat s.Q) c)) ≤
        11 * (κ * gam ρ.u (R + 3)) * nf (colOf R (rmat s.Q) c)) ∧
      (∀ r c, c < n + 1 → c < r → r < R → c < C → ((stepRun Fl.sqrt C R n s).m r c).val = 0) := by
  have h0 := ρ.u_nonneg
  have h1 := ρ.u_lt_one
  obtain ⟨α, H, hHp, hα2, hHd, hpiv, hw', hdiv⟩ := reflect_facts R n hn s.m κ hκ hN ht hH hc
  set g := gam ρ.u (R + 3) with hg
  have hg0 : 0 ≤ g := gam_nonneg h0 h1 hN
  set t := κ * g with htd
  have hgt : g ≤ t := by rw [htd]; nlinarith
  have ht0 : 0 ≤ t := hg0.trans hgt
  have h5u : 5 * ρ.u ≤ g := by
    have h2 := gam_ge h0 (R + 3) hN
    have h3 : (5:ℝ) ≤ ((R + 3 : ℕ) : ℝ) := by exact_mod_cast (by omega : 5 ≤ R + 3)
    have := mul_le_mul_of_nonneg_right h3 h0
    linarith
  set w := wex R n (rmat s.m) α with hwd
  set w' : Fin R → ℝ := fun i => if (i : Nat) < n then 0 else (reflect Fl.sqrt R n s.m i n).val with hw'd
  have hsz : R - n = (R - n - 1) + 1 := by omega
  -- sums with w
  have hsumw : ∀ f : Nat → ℝ, ∑ i : Fin R, w i * f i = (rmat s.m n n - α) * f n + ∑ i ∈ range (R - n - 1), rmat s.m (n + (i + 1)) n * f (n + (i + 1)) := by
    intro f
    have e : ∀ i : Fin R, w i * f i = if (i : Nat) < n then 0 else (fun i : Nat => (if i = n then rmat s.m n n - α else rmat s.m i n) * f i) i := by
      intro i
      rw [hwd]; unfold wex
      by_cases hi : (i : Nat) < n
      · rw [if_pos hi, if_pos hi, zero_mul]
      · rw [if_neg hi, if_neg hi]
    rw [sum_congr rfl fun i _ => e i]
    refine (sum_from R n (by omega) (fun i : Nat => (if i = n then rmat s.m n n - α else rmat s.m i n) * f i)).trans ?_
    rw [hsz, sum_range_succ', add_comm]
    simp only [Nat.add_zero, if_true]
    congr 1
    exact sum_congr rfl fun i _ => by rw [if_neg (by omega)]
  have hα2' : α * α = rmat s.m n n * rmat s.m n n + ∑ i ∈ range (R - n - 1), rmat s.m (n + (i + 1)) n * rmat s.m (n + (i + 1)) n := by
    rw [← pow_two, hα2, hsz, sum_range_succ', add_comm]
    simp only [Nat.add_zero]
    congr 1
    · exact pow_two _
    · exact sum_congr rfl fun i _ => pow_two _
  have hHd' : H = α * α - α * rmat s.m n n := hHd
  have hww : ∑ i, w i * w i = 2 * H := by
    have h2 := hsumw (fun i => if i = n then rmat s.m n n - α else rmat s.m i n)
    have e : ∀ i : Fin R, w i * (fun i : Nat => if i = n then rmat s.m n n - α else rmat s.m i n) i = w i * w i := by
      intro i
      rw [hwd]; unfold wex
      by_cases hi : (i : Nat) < n
      · rw [if_pos hi]; ring
      · rw [if_neg hi]
    rw [sum_congr rfl fun i _ => e i] at h2
    rw [h2]
    simp only [if_true]
    have e2 : ∑ i ∈ range (R - n - 1), rmat s.m (n + (i + 1)) n * (if n + (i + 1) = n then rmat s.m n n - α else rmat s.m (n + (i + 1)) n) =
        ∑ i ∈ range (R - n - 1), rmat s.m (n + (i + 1)) n * rmat s.m (n + (i + 1)) n :=
      sum_congr rfl fun i _ => by rw [if_neg (by omega)]
    rw [e2, hHd']
    linarith
  -- the generic column
  have hcol : ∀ (c c' : Fin R → ℝ) (B B' : Nat → Fl ρ), (∀ i : Fin R, c i = (B i).val) → (∀ i : Fin R, c' i = (B' i).val) →
      (∀ i, i < n → B' i = B i) →
      (∀ i, n ≤ i → i < R → B' i = B i - reflect Fl.sqrt R n s.m i n *
        (Ops.dot (R - n) (fun i => reflect Fl.sqrt R n s.m (n + i) n) (fun i => B (n + i)) / heightOf Fl.sqrt R n s.m)) →
      nf (c' - (house R w H).mulVec c) ≤ 11 * t * nf c := by
    intro c c' B B' hcB hcB' hlow hhigh
    set d := Ops.dot (R - n) (fun i => reflect Fl.sqrt R n s.m (n + i) n) (fun i => B (n + i)) with hd
    set va := d / heightOf Fl.sqrt R n s.m with hva
    set p : Fin R → ℝ := fun i => if (i : Nat) < n then 0 else (reflect Fl.sqrt R n s.m i n * va).val with hp
    have hNn : ((R - n : ℕ) : ℝ) * ρ.u < 1 := by
      refine lt_of_le_of_lt (mul_le_mul_of_nonneg_right ?_ h0) hN
      exact_mod_cast (by omega : R - n ≤ R + 3)
    have hsum : ∀ F : ℝ → ℝ, F 0 = 0 → ∑ i, F (w' i * c i) = ∑ i ∈ range (R - n), F ((reflect Fl.sqrt R n s.m (n + i) n).val * (B (n + i)).val) := by
      intro F hF
      have e : ∀ i : Fin R, F (w' i * c i) = if (i : Nat) < n then 0 else (fun i : Nat => F ((reflect Fl.sqrt R n s.m i n).val * (B i).val)) i := by
        intro i
        rw [hw'd, hcB]
        by_cases hi : (i : Nat) < n
        · simp only [if_pos hi, zero_mul, hF]
        · simp only [if_neg hi]
      rw [sum_congr rfl fun i _ => e i]
      exact sum_from R n (by omega) (fun i : Nat => F ((reflect Fl.sqrt R n s.m i n).val * (B i).val))
    have hdot : |d.val - ∑ i, w' i * c i| ≤ g * ∑ i, |w' i * c i| := by
      have := c61_dot (R - n) hNn (fun i => reflect Fl.sqrt R n s.m (n + i) n) (fun i => B (n + i))
      rw [hsum (fun z => z) rfl, hsum (fun z => |z|) abs_zero]
      refine this.trans (mul_le_mul_of_nonneg_right (gam_mono h0 h1 (by omega) hN) (sum_nonneg fun _ _ => abs_nonneg _))
    have hv := va_err (w := w) (w' := w') (c := c) (va := va.val) hHp hw' ht0 hg0 hdot (hdiv d)
    have hres := col_err (p := p) (c' := c') hHp hww hw' ht0 h0 (by positivity) hv (fun i => ?_) (fun i => ?_)
    · rw [house_mulVec]
      refine hres.trans (mul_le_mul_of_nonneg_right ?_ (nf_nonneg _))
      exact eps_le h0 h5u hgt ht
    · rw [hp]
      by_cases hi : (i : Nat) < n
      · simp only [if_pos hi]; simp
      · simp only [if_neg hi]
        rw [Fl.val_mul]; exact ρ.err _
    · rw [hcB, hcB', hp]
      by_cases hi : (i : Nat) < n
      · simp only [if_pos hi, hlow i hi, sub_zero, sub_self, abs_zero]
        exact mul_nonneg h0 (abs_nonneg _)
      · simp only [if_neg hi, hhigh i (by omega) i.2]
        rw [Fl.val_sub]; exact ρ.err _
  refine ⟨house R w H, house_orth R w H hHp.ne' hww, fun c hc => ?_, fun c hc => ?_, fun r c hcn hcr hr hcC => ?_⟩
  · have hel := fun r hr => stepRun_m Fl.sqrt R C n (by omega) s r c hr hc
    rcases Nat.lt_trichotomy c n with h | h | h
    · -- finished columns do not change
      have e : colOf R (rmat (stepRun Fl.sqrt C R n s).m) c = colOf R (rmat s.m) c := by
        funext i
        show ((stepRun Fl.sqrt C R n s).m i c).val = (s.m i c).val
        rw [hel i i.2, if_pos h]
      have e2 : (house R w H).mulVec (colOf R (rmat s.m) c) = colOf R (rmat s.m) c := by
        rw [house_mulVec]
        have : ∑ j, w j * colOf R (rmat s.m) c j = 0 := by
          refine sum_eq_zero fun i _ => ?_
          by_cases hi : (i : Nat) < n
          · rw [hwd]; unfold wex; rw [if_pos hi, zero_mul]
          · have : colOf R (rmat s.m) c i = 0 := hz i c h (by omega) i.2
            rw [this, mul_zero]
        funext i
        rw [this]; simp
      rw [e, e2, sub_self]
      have : nf (0 : Fin R → ℝ) = 0 := by simp [nf]
      rw [this]
      exact mul_nonneg (mul_nonneg (by norm_num) ht0) (nf_nonneg _)
    · subst h
      rw [house_mulVec]
      have hdx : ∑ j, w j * colOf R (rmat s.m) c j = H := by
        have := hsumw (fun i => rmat s.m i c)
        rw [hHd']
        have e : ∑ j, w j * colOf R (rmat s.m) c j = ∑ j, w j * (fun i => rmat s.m i c) j := rfl
        rw [e, this]
        linarith
      rw [hdx, div_self hHp.ne']
      have hle : |α| ≤ nf (colOf R (rmat s.m) c) := by
        unfold nf
        refine Real.abs_le_sqrt ?_
        rw [hα2, ← sum_from R c (by omega) (fun i => (s.m i c).val ^ 2)]
        refine sum_le_sum fun i _ => ?_
        by_cases hi : (i : Nat) < c
        · rw [if_pos hi]; exact sq_nonneg _
        · rw [if_neg hi]; exact le_rfl
      have hb : nf (colOf R (rmat (stepRun Fl.sqrt C R c s).m) c - fun i => colOf R (rmat s.m) c i - w i * 1) ≤ g * |α| := by
        set ic : Fin R := ⟨c, by omega⟩ with hic
        have e : (colOf R (rmat (stepRun Fl.sqrt C R c s).m) c - fun i => colOf R (rmat s.m) c i - w i * 1) =
            fun i => ((pivot Fl.sqrt R c s.m).val - α) * (if i = ic then 1 else 0) := by
          funext i
          show ((stepRun Fl.sqrt C R c s).m i c).val - ((s.m i c).val - w i * 1) = _
          rw [hel i i.2, if_neg (lt_irrefl c), if_pos rfl, hwd]
          unfold wex
          by_cases hi : (i : Nat) < c
          · rw [if_pos hi, if_pos hi, if_neg (fun h => by rw [h, hic] at hi; exact lt_irrefl _ hi)]; ring
          · rw [if_neg hi, if_neg hi]
            by_cases hi2 : (i : Nat) = c
            · rw [if_pos hi2, if_pos hi2, if_pos (Fin.ext hi2)]
              have : (s.m i c).val = rmat s.m c c := by rw [hi2]; rfl
              rw [this]; ring
            · rw [if_neg hi2, if_neg hi2, if_neg (fun h => hi2 (by rw [h]))]
              show (0:ℝ) - ((s.m i c).val - (s.m i c).val * 1) = _
              ring
        rw [e, nf_smul]
        have : nf (fun i : Fin R => if i = ic then (1:ℝ) else 0) = 1 := by
          unfold nf
          simp
        rw [this, mul_one]
        exact hpiv
      refine hb.trans (mul_le_mul ?_ hle (abs_nonneg _) (mul_nonneg (by norm_num) ht0))
      linarith
    · refine hcol _ _ (fun i => s.m i c) (fun i => if i < R then (stepRun Fl.sqrt C R n s).m i c else s.m i c) (fun i => rfl)
        (fun i => by simp only [if_pos i.2]; rfl) (fun i hi => ?_) (fun i hi hiR => ?_)
      · show (if i < R then _ else _) = _
        by_cases hiR : i < R
        · rw [if_pos hiR, hel i hiR, if_neg (by omega), if_neg (by omega), if_pos hi]
        · rw [if_neg hiR]
      · show (if i < R then _ else _) = _
        rw [if_pos hiR, hel i hiR, if_neg (by omega), if_neg (by omega), if_neg (by omega)]
  · have hel := fun r hr => stepRun_Q Fl.sqrt R C n s r c hr hc
    refine hcol _ _ (fun i => s.Q i c) (fun i => if i < R then (stepRun Fl.sqrt C R n s).Q i c else s.Q i c) (fun i => rfl)
        (fun i => by simp only [if_pos i.2]; rfl) (fun i hi => ?_) (fun i hi hiR => ?_)
    · show (if i < R then _ else _) = _
      by_cases hiR : i < R
      · rw [if_pos hiR, hel i hiR, if_pos hi]
      · rw [if_neg hiR]
    · show (if i < R then _ else _) = _
      rw [if_pos hiR, hel i hiR, if_neg (by omega)]
  · rw [stepRun_m Fl.sqrt R C n (by omega) s r c hr hcC]
    by_cases h : c < n
    · rw [if_pos h]; exact hz r c h hcr hr
    · rw [if_neg h, if_pos (by omega), if_neg (by omega), if_neg (by omega)]; rfl

end fl
end TooN.QRF
