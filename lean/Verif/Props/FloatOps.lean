import Verif.Proof.Float
/-!
# C61: rounding errors of the arithmetic operators

`Fl ρ` are the representable numbers of a floating-point format with rounding `ρ` (`Spec/Float.lean`):
one rounding with relative error at most `ρ.u` per operation.  `gam u n = n u / (1 - n u)`.
The functions are those of `Model/Ops.lean`, run in this arithmetic.
-/
set_option linter.unusedSectionVars false
namespace TooN
open Finset
variable {ρ : Rounding}

/-- **C61** every elementwise operator rounds each element once (relative error at most `u`) -/
theorem c61_elementwise (n R C : ℕ) (a b u : Vec (Fl ρ)) (s : Fl ρ) (A B U : Mat (Fl ρ)) :
    (∀ i, i < n → |(Ops.addV n a b u i).val - ((a i).val + (b i).val)| ≤ ρ.u * |(a i).val + (b i).val|) ∧
    (∀ i, i < n → |(Ops.subV n a b u i).val - ((a i).val - (b i).val)| ≤ ρ.u * |(a i).val - (b i).val|) ∧
    (∀ i, i < n → |(Ops.diagmultVV n a b u i).val - (a i).val * (b i).val| ≤ ρ.u * |(a i).val * (b i).val|) ∧
    (∀ i, i < n → |(Ops.applyScalarV (· * ·) n a s u i).val - (a i).val * s.val| ≤ ρ.u * |(a i).val * s.val|) ∧
    (∀ i, i < n → |(Ops.applyScalarVL (· * ·) n s a u i).val - s.val * (a i).val| ≤ ρ.u * |s.val * (a i).val|) ∧
    (s.val ≠ 0 → ∀ i, i < n →
      |(Ops.applyScalarV (· / ·) n a s u i).val - (a i).val / s.val| ≤ ρ.u * |(a i).val / s.val|) ∧
    (∀ r c, r < R → c < C →
      |(Ops.addM R C A B U r c).val - ((A r c).val + (B r c).val)| ≤ ρ.u * |(A r c).val + (B r c).val|) ∧
    (∀ r c, r < R → c < C →
      |(Ops.subM R C A B U r c).val - ((A r c).val - (B r c).val)| ≤ ρ.u * |(A r c).val - (B r c).val|) ∧
    (∀ r c, r < R → c < C →
      |(Ops.applyScalarM (· * ·) R C A s U r c).val - (A r c).val * s.val| ≤ ρ.u * |(A r c).val * s.val|) := by
  refine ⟨?_, ?_, ?_, ?_, ?_, ?_, ?_, ?_, ?_⟩
  · intro i hi; rw [Ops.addV, Ops.pairwiseV, forN_vecset, if_pos hi]; exact ρ.err _
  · intro i hi; rw [Ops.subV, Ops.pairwiseV, forN_vecset, if_pos hi]; exact ρ.err _
  · intro i hi; rw [Ops.diagmultVV, Ops.pairwiseV, forN_vecset, if_pos hi]; exact ρ.err _
  · intro i hi; rw [Ops.applyScalarV, forN_vecset, if_pos hi]; exact ρ.err _
  · intro i hi; rw [Ops.applyScalarVL, forN_vecset, if_pos hi]; exact ρ.err _
  · intro _ i hi; rw [Ops.applyScalarV, forN_vecset, if_pos hi]; exact ρ.err _
  · intro r c hr hc; rw [Ops.addM, Ops.pairwiseM, evalM_apply, if_pos ⟨hr, hc⟩]; exact ρ.err _
  · intro r c hr hc; rw [Ops.subM, Ops.pairwiseM, evalM_apply, if_pos ⟨hr, hc⟩]; exact ρ.err _
  · intro r c hr hc; rw [Ops.applyScalarM, evalM_apply, if_pos ⟨hr, hc⟩]; exact ρ.err _

/-- **C61** negation is exact -/
theorem c61_neg_exact (n R C : ℕ) (a t u : Vec (Fl ρ)) (A T U : Mat (Fl ρ)) :
    (∀ i, i < n → (Ops.negV n a t u i).val = -(a i).val) ∧
    (∀ r c, r < R → c < C → (Ops.negM R C A T U r c).val = -(A r c).val) := by
  constructor
  · intro i hi
    rw [Ops.negV, Ops.copyV, forN_vecset, if_pos hi, Ops.applyScalarV, forN_vecset, if_pos hi,
      Fl.val_mul, Fl.val_neg, Fl.val_one, mul_neg, mul_one, ρ.neg, (a i).repr]
  · intro r c hr hc
    rw [Ops.negM, evalM_apply, if_pos ⟨hr, hc⟩, Ops.applyScalarM, evalM_apply, if_pos ⟨hr, hc⟩,
      Fl.val_mul, Fl.val_neg, Fl.val_one, mul_neg, mul_one, ρ.neg, (A r c).repr]

/-- **C61** dot product, forward error -/
theorem c61_dot (n : ℕ) (hn : n * ρ.u < 1) (a b : Vec (Fl ρ)) :
    |(Ops.dot n a b).val - ∑ i ∈ range n, (a i).val * (b i).val| ≤
      gam ρ.u n * ∑ i ∈ range n, |(a i).val * (b i).val| := by
  obtain ⟨f, hf, e⟩ := dot_fac n a b
  rw [e]
  exact fac_sum_err ρ.u_nonneg ρ.u_lt_one hn _ _ f (fun i hi => hf i (mem_range.1 hi))

/-- **C61** dot product, backward error: the result is the exact dot product of slightly different vectors -/
theorem c61_dot_backward (n : ℕ) (hn : n * ρ.u < 1) (a b : Vec (Fl ρ)) :
    ∃ Δ : Vec ℝ, (∀ i, i < n → |Δ i| ≤ gam ρ.u n * |(a i).val|) ∧
      (Ops.dot n a b).val = ∑ i ∈ range n, ((a i).val + Δ i) * (b i).val := by
  obtain ⟨f, hf, e⟩ := dot_fac n a b
  refine ⟨fun i => (a i).val * (f i - 1), fun i hi => ?_, ?_⟩
  · rw [abs_mul, mul_comm]
    exact mul_le_mul_of_nonneg_right ((hf i hi).gam ρ.u_nonneg ρ.u_lt_one hn) (abs_nonneg _)
  · rw [e]; exact sum_congr rfl (fun i _ => by ring)

/-- the hypothesis holds for every dot product of fewer than `2^53` doubles -/
example (n : ℕ) (hn : n < 2^53) : n * Rounding.double.u < 1 := by
  have h : ((n:ℕ):ℝ) < 2^53 := by exact_mod_cast hn
  rw [Rounding.double_u, mul_one_div, div_lt_one (by positivity)]; exact h

/-- **C61** matrix times vector and vector times matrix, elementwise -/
theorem c61_mulMV (R C : ℕ) (hR : R * ρ.u < 1) (hC : C * ρ.u < 1) (A : Mat (Fl ρ)) (v w u : Vec (Fl ρ)) :
    (∀ i, i < R → |(Ops.mulMV R C A v u i).val - ∑ j ∈ range C, (A i j).val * (v j).val| ≤
      gam ρ.u C * ∑ j ∈ range C, |(A i j).val * (v j).val|) ∧
    (∀ j, j < C → |(Ops.mulVM R C w A u j).val - ∑ i ∈ range R, (w i).val * (A i j).val| ≤
      gam ρ.u R * ∑ i ∈ range R, |(w i).val * (A i j).val|) := by
  constructor
  · intro i hi; rw [Ops.mulMV, forN_vecset, if_pos hi]; exact c61_dot C hC (A i) v
  · intro j hj; rw [Ops.mulVM, forN_vecset, if_pos hj]; exact c61_dot R hR w (Mat.T A j)

/-- **C61** matrix product, elementwise: `|fl(AB) - AB| ≤ γ |A||B|` -/
theorem c61_mulMM (R M C : ℕ) (hM : M * ρ.u < 1) (A B U : Mat (Fl ρ)) (r c : ℕ) (hr : r < R) (hc : c < C) :
    |(Ops.mulMM R M C A B U r c).val - ∑ k ∈ range M, (A r k).val * (B k c).val| ≤
      gam ρ.u M * ∑ k ∈ range M, |(A r k).val| * |(B k c).val| := by
  rw [Ops.mulMM, evalM_apply, if_pos ⟨hr, hc⟩]
  have := c61_dot M hM (A r) (Mat.T B c)
  refine le_trans this (le_of_eq ?_)
  congr 1
  exact sum_congr rfl (fun k _ => abs_mul _ _)

/-- **C61** cross product -/
theorem c61_cross (hu : 2 * ρ.u < 1) (a b u : Vec (Fl ρ)) :
    |(Ops.cross a b u 0).val - ((a 1).val * (b 2).val - (a 2).val * (b 1).val)| ≤
      gam ρ.u 2 * (|(a 1).val * (b 2).val| + |(a 2).val * (b 1).val|) ∧
    |(Ops.cross a b u 1).val - ((a 2).val * (b 0).val - (a 0).val * (b 2).val)| ≤
      gam ρ.u 2 * (|(a 2).val * (b 0).val| + |(a 0).val * (b 2).val|) ∧
    |(Ops.cross a b u 2).val - ((a 0).val * (b 1).val - (a 1).val * (b 0).val)| ≤
      gam ρ.u 2 * (|(a 0).val * (b 1).val| + |(a 1).val * (b 0).val|) := by
  have key : ∀ p q r s : Fl ρ, |(p * q - r * s).val - (p.val * q.val - r.val * s.val)| ≤
      gam ρ.u 2 * (|p.val * q.val| + |r.val * s.val|) := by
    intro p q r s
    have h0 := ρ.u_nonneg
    have h1 := ρ.u_lt_one
    obtain ⟨f, hf, ef⟩ := Fl.mul_fac p q
    obtain ⟨g, hg, eg⟩ := Fl.mul_fac r s
    obtain ⟨k, hk, ek⟩ := Fl.sub_fac (p * q) (r * s)
    have a1 := (hf.mul h0 h1 hk).gam h0 h1 (by exact_mod_cast hu)
    have a2 := (hg.mul h0 h1 hk).gam h0 h1 (by exact_mod_cast hu)
    rw [ek, ef, eg, show (p.val * q.val * f - r.val * s.val * g) * k - (p.val * q.val - r.val * s.val) =
      (p.val * q.val) * (f * k - 1) - (r.val * s.val) * (g * k - 1) by ring]
    refine le_trans (abs_sub _ _) ?_
    rw [mul_add]
    refine add_le_add ?_ ?_
    · rw [mul_comm, abs_mul]; exact mul_le_mul_of_nonneg_right a1 (abs_nonneg _)
    · rw [mul_comm, abs_mul]; exact mul_le_mul_of_nonneg_right a2 (abs_nonneg _)
  refine ⟨key _ _ _ _, key _ _ _ _, key _ _ _ _⟩

/-- **C61** `norm_sq` and `norm` have a small relative error, whatever the vector -/
theorem c61_norm (n : ℕ) (hn : (n + 1) * ρ.u < 1) (v : Vec (Fl ρ)) :
    |(Ops.dot n v v).val - ∑ i ∈ range n, (v i).val ^ 2| ≤ gam ρ.u n * ∑ i ∈ range n, (v i).val ^ 2 ∧
    |(normFl n v).val - Real.sqrt (∑ i ∈ range n, (v i).val ^ 2)| ≤
      gam ρ.u (n + 1) * Real.sqrt (∑ i ∈ range n, (v i).val ^ 2) := by
  have h0 := ρ.u_nonneg
  have h1 := ρ.u_lt_one
  have hn' : (n:ℝ) * ρ.u < 1 := by nlinarith
  constructor
  · obtain ⟨g, hg, e⟩ := normSq_fac n v
    have hs : 0 ≤ ∑ i ∈ range n, (v i).val ^ 2 := sum_nonneg fun i _ => sq_nonneg _
    rw [e, show ∀ x : ℝ, x * g - x = (g - 1) * x from fun x => by ring, abs_mul, abs_of_nonneg hs]
    exact mul_le_mul_of_nonneg_right (hg.gam h0 h1 hn') hs
  · obtain ⟨g, hg, e⟩ := norm_fac n v
    rw [e, show ∀ x : ℝ, x * g - x = (g - 1) * x from fun x => by ring, abs_mul,
      abs_of_nonneg (Real.sqrt_nonneg _)]
    exact mul_le_mul_of_nonneg_right (hg.gam h0 h1 (by exact_mod_cast hn)) (Real.sqrt_nonneg _)

/-- **C61** `unit(v)` and `normalize(v)` of a nonzero vector never divide by zero, and every element is accurate -/
theorem c61_unit (n : ℕ) (hn : (n + 3) * ρ.u < 1) (v u : Vec (Fl ρ)) (hv : ∃ i, i < n ∧ (v i).val ≠ 0) :
    (∃ w, unitFl n v u = some w ∧ ∀ i, i < n →
      |(w i).val - (v i).val / Real.sqrt (∑ i ∈ range n, (v i).val ^ 2)| ≤
        gam ρ.u (n + 3) * |(v i).val / Real.sqrt (∑ i ∈ range n, (v i).val ^ 2)|) ∧
    (∃ w, normalizeFl n v = some w ∧ ∀ i, i < n →
      |(w i).val - (v i).val / Real.sqrt (∑ i ∈ range n, (v i).val ^ 2)| ≤
        gam ρ.u (n + 3) * |(v i).val / Real.sqrt (∑ i ∈ range n, (v i).val ^ 2)|) := by
  have h0 := ρ.u_nonneg
  have h1 := ρ.u_lt_one
  obtain ⟨g, hg, e⟩ := norm_fac n v
  have hs : 0 < ∑ i ∈ range n, (v i).val ^ 2 := by
    obtain ⟨i, hi, h⟩ := hv
    exact lt_of_lt_of_le (by positivity : 0 < (v i).val ^ 2)
      (single_le_sum (f := fun i => (v i).val ^ 2) (fun i _ => sq_nonneg _) (mem_range.2 hi))
  set S := Real.sqrt (∑ i ∈ range n, (v i).val ^ 2) with hS
  have hSp : 0 < S := Real.sqrt_pos.2 hs
  have hg0 := hg.pos h0 h1
  have hne : Fl.sqrt (Ops.dot n v v) ≠ 0 := by
    rw [Ne, Fl.eq_zero_iff, show Fl.sqrt (Ops.dot n v v) = normFl n v from rfl, e]
    exact mul_ne_zero hSp.ne' hg0.ne'
  have key : ∀ (x y f : ℝ), Fac ρ.u (n+3) f → y = x / S * f → |y - x / S| ≤ gam ρ.u (n+3) * |x / S| := by
    intro x y f hf ey
    rw [ey, show x / S * f - x / S = (f - 1) * (x / S) by ring, abs_mul]
    exact mul_le_mul_of_nonneg_right (hf.gam h0 h1 (by exact_mod_cast hn)) (abs_nonneg _)
  constructor
  · refine ⟨_, by rw [unitFl, if_neg hne], fun i hi => ?_⟩
    rw [Ops.applyScalarV, forN_vecset, if_pos hi]
    obtain ⟨k, hk, ek⟩ := Fl.div_fac (1 : Fl ρ) (Fl.sqrt (Ops.dot n v v))
    obtain ⟨l, hl, el⟩ := Fl.mul_fac (v i) (1 / Fl.sqrt (Ops.dot n v v))
    refine key _ _ (g⁻¹ * k * l) ?_ ?_
    · exact ((hg.inv h0 h1).mul h0 h1 hk).mul h0 h1 hl
    · rw [el, ek, show Fl.sqrt (Ops.dot n v v) = normFl n v from rfl, e, Fl.val_one]
      field_simp
  · refine ⟨_, by rw [normalizeFl, if_neg hne], fun i hi => ?_⟩
    rw [forN_vecupd n (fun i w => w / Fl.sqrt (Ops.dot n v v)), if_pos hi]
    obtain ⟨l, hl, el⟩ := Fl.div_fac (v i) (Fl.sqrt (Ops.dot n v v))
    refine key _ _ (g⁻¹ * l) ?_ ?_
    · exact ((hg.inv h0 h1).mul h0 h1 hl).mono h0 h1 (by omega)
    · rw [el, show Fl.sqrt (Ops.dot n v v) = normFl n v from rfl, e]
      field_simp

/-- **C61** identities of exact arithmetic that survive rounding bit for bit: commutativity of `+`,
symmetry of the dot product, `(A B)ᵀ = Bᵀ Aᵀ`, `A v = v Aᵀ` -/
theorem c61_exact_symmetries (n R M C : ℕ) (a b u u' : Vec (Fl ρ)) (A B U U' : Mat (Fl ρ)) :
    (∀ i, i < n → Ops.addV n a b u i = Ops.addV n b a u' i) ∧
    Ops.dot n a b = Ops.dot n b a ∧
    (∀ r c, r < R → c < C → Ops.mulMM R M C A B U r c = Ops.mulMM C M R (Mat.T B) (Mat.T A) U' c r) ∧
    (∀ r, r < R → Ops.mulMV R C A a u r = Ops.mulVM C R a (Mat.T A) u' r) := by
  have hm : ∀ x y : Fl ρ, x * y = y * x := fun x y => by
    apply Fl.ext; rw [Fl.val_mul, Fl.val_mul, mul_comm]
  have ha : ∀ x y : Fl ρ, x + y = y + x := fun x y => by
    apply Fl.ext; rw [Fl.val_add, Fl.val_add, add_comm]
  have hd : ∀ (n : ℕ) (a b : Vec (Fl ρ)), Ops.dot n a b = Ops.dot n b a := fun n a b => by
    unfold Ops.dot
    apply forN_congr
    intro i t _
    rw [hm]
  refine ⟨?_, hd n a b, ?_, ?_⟩
  · intro i hi
    rw [Ops.addV, Ops.pairwiseV, Ops.pairwiseV, forN_vecset, forN_vecset, if_pos hi, if_pos hi, ha]
  · intro r c hr hc
    rw [Ops.mulMM, Ops.mulMM, evalM_apply, evalM_apply, if_pos ⟨hr, hc⟩, if_pos ⟨hc, hr⟩, hd]
    rfl
  · intro r hr
    rw [Ops.mulMV, Ops.mulVM, forN_vecset, forN_vecset, if_pos hr, if_pos hr, hd]
    rfl

/-- **C61** if every product and every partial sum is representable (e.g. integers of at most `p` bits),
the dot product is exact -/
theorem c61_dot_exact (n : ℕ) (a b : Vec (Fl ρ))
    (hp : ∀ i, i < n → ρ.rnd ((a i).val * (b i).val) = (a i).val * (b i).val)
    (hs : ∀ k, k ≤ n → ρ.rnd (∑ i ∈ range k, (a i).val * (b i).val) = ∑ i ∈ range k, (a i).val * (b i).val) :
    (Ops.dot n a b).val = ∑ i ∈ range n, (a i).val * (b i).val := by
  unfold Ops.dot
  induction n with
  | zero => simp
  | succ n ih =>
    rw [forN_succ, Fl.val_add, Fl.val_mul, ih (fun i hi => hp i (by omega)) (fun k hk => hs k (by omega)),
      hp n (by omega), ← sum_range_succ, hs (n+1) le_rfl]

/-- **C61** in `p`-bit binary arithmetic the dot product of integer-valued vectors is exact as long as
`∑ |aᵢ bᵢ| ≤ 2^p` -/
theorem c61_dot_integers (p : ℕ) (hp : 1 ≤ p) (n : ℕ) (a b : Vec (Fl (Rounding.nearest p hp))) (x y : ℕ → ℤ)
    (ha : ∀ i, i < n → (a i).val = x i) (hb : ∀ i, i < n → (b i).val = y i)
    (hs : ∑ i ∈ range n, |x i * y i| ≤ 2^p) :
    (Ops.dot n a b).val = ((∑ i ∈ range n, x i * y i : ℤ) : ℝ) := by
  have e : ∀ k, k ≤ n → ∑ i ∈ range k, (a i).val * (b i).val = ((∑ i ∈ range k, x i * y i : ℤ) : ℝ) := by
    intro k hk
    push_cast
    refine sum_congr rfl fun i hi => ?_
    have := mem_range.1 hi
    rw [ha i (by omega), hb i (by omega)]
  have hsub : ∀ k, k ≤ n → ∑ i ∈ range k, |x i * y i| ≤ 2^p := fun k hk =>
    le_trans (sum_le_sum_of_subset_of_nonneg (range_subset_range.2 hk) (fun _ _ _ => abs_nonneg _)) hs
  rw [← e n le_rfl]
  apply c61_dot_exact
  · intro i hi
    rw [ha i hi, hb i hi, ← Int.cast_mul]
    exact rndNearest_int p hp _ (le_trans (single_le_sum (f := fun i => |x i * y i|)
      (fun _ _ => abs_nonneg _) (mem_range.2 hi)) hs)
  · intro k hk
    rw [e k hk]
    exact rndNearest_int p hp _ (le_trans (abs_sum_le_sum_abs _ _) (hsub k hk))

/-- a dot product that meets the hypotheses, with a non-trivial value -/
example : Fl.val (Ops.dot 3 (fun i : ℕ => Fl.of (Rounding.nearest 53 (by norm_num)) ((i : ℤ) : ℝ))
    (fun i : ℕ => Fl.of (Rounding.nearest 53 (by norm_num)) (((10 : ℤ) - (i:ℤ) : ℤ) : ℝ))) = 25 := by
  have h : ∀ k : ℤ, |k| ≤ 2^53 → (Fl.of (Rounding.nearest 53 (by norm_num)) (k:ℝ)).val = k :=
    fun k hk => rndNearest_int 53 (by norm_num) k hk
  rw [c61_dot_integers 53 (by norm_num) 3 _ _ (fun i => (i:ℤ)) (fun i => 10 - (i:ℤ))
    (fun i hi => h i (by rw [abs_le]; constructor <;> omega))
    (fun i hi => h _ (by rw [abs_le]; constructor <;> omega)) (by decide)]
  norm_num [sum_range_succ]

end TooN
