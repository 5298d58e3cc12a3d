import Verif.Proof.Fused
import Verif.Props.FloatOps
import Verif.Props.QRF
/-!
# C82: the operators with contracted multiply-add

`Fu ρ ϰ` (`Model/Fused.lean`) are the numbers of `Model/Float.lean` when the compiler may evaluate `a ± x*y` with a single rounding; `ϰ`
says when it does.  The functions are those of `Model/Ops.lean` run on this type.
-/
set_option linter.unusedSectionVars false
namespace TooN.Fused
open Finset
variable {ρ : Rounding} {ϰ : Contract ρ}

/-- `norm` (helpers.h:97-101) -/
noncomputable def normFu (n : ℕ) (v : Vec (Fu ρ ϰ)) : Fu ρ ϰ := Fu.sqrt (Ops.dot n v v)

theorem normSq_fac (n : ℕ) (v : Vec (Fu ρ ϰ)) :
    ∃ g, Fac ρ.u n g ∧ (Ops.dot n v v).val = (∑ i ∈ range n, (v i).val ^ 2) * g := by
  obtain ⟨f, hf, e⟩ := dot_fac n v v
  obtain ⟨g, hg, eg⟩ := fac_mean ρ.u_nonneg ρ.u_lt_one n n (fun i => (v i).val ^ 2) f (fun i => sq_nonneg _) hf
  exact ⟨g, hg, by rw [← eg, e]; exact sum_congr rfl (fun i _ => by ring)⟩

theorem norm_fac (n : ℕ) (v : Vec (Fu ρ ϰ)) :
    ∃ g, Fac ρ.u (n+1) g ∧ (normFu n v).val = Real.sqrt (∑ i ∈ range n, (v i).val ^ 2) * g := by
  obtain ⟨g, hg, e⟩ := normSq_fac n v
  obtain ⟨d, hd, ed⟩ := rnd_fac ρ (Real.sqrt (Ops.dot n v v).val)
  refine ⟨Real.sqrt g * d, (hg.sqrt ρ.u_nonneg ρ.u_lt_one).mul ρ.u_nonneg ρ.u_lt_one hd, ?_⟩
  rw [normFu, Fu.val_sqrt, ed, e, Real.sqrt_mul (sum_nonneg fun i _ => sq_nonneg _)]
  ring

/-- **C82** dot product, forward error -/
theorem c82_dot (n : ℕ) (hn : n * ρ.u < 1) (a b : Vec (Fu ρ ϰ)) :
    |(Ops.dot n a b).val - ∑ i ∈ range n, (a i).val * (b i).val| ≤
      gam ρ.u n * ∑ i ∈ range n, |(a i).val * (b i).val| := by
  obtain ⟨f, hf, e⟩ := dot_fac n a b
  rw [e]
  exact fac_sum_err ρ.u_nonneg ρ.u_lt_one hn _ _ f (fun i hi => hf i (mem_range.1 hi))

/-- **C82** dot product, backward error: the result is the exact dot product of slightly different vectors -/
theorem c82_dot_backward (n : ℕ) (hn : n * ρ.u < 1) (a b : Vec (Fu ρ ϰ)) :
    ∃ Δ : Vec ℝ, (∀ i, i < n → |Δ i| ≤ gam ρ.u n * |(a i).val|) ∧
      (Ops.dot n a b).val = ∑ i ∈ range n, ((a i).val + Δ i) * (b i).val := by
  obtain ⟨f, hf, e⟩ := dot_fac n a b
  refine ⟨fun i => (a i).val * (f i - 1), fun i hi => ?_, ?_⟩
  · rw [abs_mul, mul_comm]
    exact mul_le_mul_of_nonneg_right ((hf i hi).gam ρ.u_nonneg ρ.u_lt_one hn) (abs_nonneg _)
  · rw [e]; exact sum_congr rfl (fun i _ => by ring)

/-- **C82** matrix times vector and vector times matrix, elementwise -/
theorem c82_mulMV (R C : ℕ) (hR : R * ρ.u < 1) (hC : C * ρ.u < 1) (A : Mat (Fu ρ ϰ)) (v w u : Vec (Fu ρ ϰ)) :
    (∀ i, i < R → |(Ops.mulMV R C A v u i).val - ∑ j ∈ range C, (A i j).val * (v j).val| ≤
      gam ρ.u C * ∑ j ∈ range C, |(A i j).val * (v j).val|) ∧
    (∀ j, j < C → |(Ops.mulVM R C w A u j).val - ∑ i ∈ range R, (w i).val * (A i j).val| ≤
      gam ρ.u R * ∑ i ∈ range R, |(w i).val * (A i j).val|) := by
  constructor
  · intro i hi; rw [Ops.mulMV, forN_vecset, if_pos hi]; exact c82_dot C hC (A i) v
  · intro j hj; rw [Ops.mulVM, forN_vecset, if_pos hj]; exact c82_dot R hR w (Mat.T A j)

/-- **C82** matrix product, elementwise: `|fl(AB) - AB| ≤ γ |A||B|` -/
theorem c82_mulMM (R M C : ℕ) (hM : M * ρ.u < 1) (A B U : Mat (Fu ρ ϰ)) (r c : ℕ) (hr : r < R) (hc : c < C) :
    |(Ops.mulMM R M C A B U r c).val - ∑ k ∈ range M, (A r k).val * (B k c).val| ≤
      gam ρ.u M * ∑ k ∈ range M, |(A r k).val| * |(B k c).val| := by
  rw [Ops.mulMM, evalM_apply, if_pos ⟨hr, hc⟩]
  have := c82_dot M hM (A r) (Mat.T B c)
  refine le_trans this (le_of_eq ?_)
  congr 1
  exact sum_congr rfl (fun k _ => abs_mul _ _)

/-- **C82** cross product -/
theorem c82_cross (hu : 2 * ρ.u < 1) (a b u : Vec (Fu ρ ϰ)) :
    |(Ops.cross a b u 0).val - ((a 1).val * (b 2).val - (a 2).val * (b 1).val)| ≤
      gam ρ.u 2 * (|(a 1).val * (b 2).val| + |(a 2).val * (b 1).val|) ∧
    |(Ops.cross a b u 1).val - ((a 2).val * (b 0).val - (a 0).val * (b 2).val)| ≤
      gam ρ.u 2 * (|(a 2).val * (b 0).val| + |(a 0).val * (b 2).val|) ∧
    |(Ops.cross a b u 2).val - ((a 0).val * (b 1).val - (a 1).val * (b 0).val)| ≤
      gam ρ.u 2 * (|(a 0).val * (b 1).val| + |(a 1).val * (b 0).val|) := by
  have key : ∀ p q r s : Fu ρ ϰ, |(p * q - r * s).val - (p.val * q.val - r.val * s.val)| ≤
      gam ρ.u 2 * (|p.val * q.val| + |r.val * s.val|) := by
    intro p q r s
    have h0 := ρ.u_nonneg
    have h1 := ρ.u_lt_one
    obtain ⟨f, hf, ef⟩ := Fu.mul_fac p q
    obtain ⟨g, hg, eg⟩ := Fu.mul_ex r s
    obtain ⟨k, hk, ek⟩ := Fu.sub_fac (p * q) (r * s)
    have a1 := (hf.mul h0 h1 hk).gam h0 h1 (by exact_mod_cast hu)
    have a2 := (hg.mul h0 h1 hk).gam h0 h1 (by exact_mod_cast hu)
    rw [ek, ef, eg, show (p.val * q.val * f - r.val * s.val * g) * k - (p.val * q.val - r.val * s.val) =
      (p.val * q.val) * (f * k - 1) - (r.val * s.val) * (g * k - 1) by ring]
    refine le_trans (abs_sub _ _) ?_
    rw [mul_add]
    refine add_le_add ?_ ?_
    · rw [mul_comm, abs_mul]; exact mul_le_mul_of_nonneg_right a1 (abs_nonneg _)
    · rw [mul_comm, abs_mul]; exact mul_le_mul_of_nonneg_right a2 (abs_nonneg _)
  refine ⟨key _ _ _ _, key _ _ _ _, key _ _ _ _⟩

/-- **C82** `norm_sq` and `norm` have a small relative error, whatever the vector -/
theorem c82_norm (n : ℕ) (hn : (n + 1) * ρ.u < 1) (v : Vec (Fu ρ ϰ)) :
    |(Ops.dot n v v).val - ∑ i ∈ range n, (v i).val ^ 2| ≤ gam ρ.u n * ∑ i ∈ range n, (v i).val ^ 2 ∧
    |(normFu n v).val - Real.sqrt (∑ i ∈ range n, (v i).val ^ 2)| ≤
      gam ρ.u (n + 1) * Real.sqrt (∑ i ∈ range n, (v i).val ^ 2) := by
  have h0 := ρ.u_nonneg
  have h1 := ρ.u_lt_one
  have hn' : (n:ℝ) * ρ.u < 1 := by nlinarith
  constructor
  · obtain ⟨g, hg, e⟩ := normSq_fac n v
    have hs : 0 ≤ ∑ i ∈ range n, (v i).val ^ 2 := sum_nonneg fun i _ => sq_nonneg _
    rw [e, show ∀ x : ℝ, x * g - x = (g - 1) * x from fun x => by ring, abs_mul, abs_of_nonneg hs]
    exact mul_le_mul_of_nonneg_right (hg.gam h0 h1 hn') hs
  · obtain ⟨g, hg, e⟩ := norm_fac n v
    rw [e, show ∀ x : ℝ, x * g - x = (g - 1) * x from fun x => by ring, abs_mul,
      abs_of_nonneg (Real.sqrt_nonneg _)]
    exact mul_le_mul_of_nonneg_right (hg.gam h0 h1 (by exact_mod_cast hn)) (Real.sqrt_nonneg _)

/-- **C82** what the policies mean: `always` evaluates `a - x*y` and `a + x*y` with one rounding, `never` with two -/
theorem c82_fma (c x y : ℝ) (hc : ρ.rnd c = c) (hx : ρ.rnd x = x) (hy : ρ.rnd y = y) :
    let A : ℝ → Fu ρ (Contract.always ρ) := Fu.of _
    let N : ℝ → Fu ρ (Contract.never ρ) := Fu.of _
    (A c + A x * A y).val = ρ.rnd (c + x * y) ∧ (A c - A x * A y).val = ρ.rnd (c - x * y) ∧
    (N c + N x * N y).val = ρ.rnd (c + ρ.rnd (x * y)) ∧ (N c - N x * N y).val = ρ.rnd (c - ρ.rnd (x * y)) := by
  refine ⟨?_, ?_, ?_, ?_⟩
  · show ρ.rnd (ρ.rnd c + ρ.rnd x * ρ.rnd y) = _; rw [hc, hx, hy]
  · show ρ.rnd (ρ.rnd c - ρ.rnd x * ρ.rnd y) = _; rw [hc, hx, hy]
  · show ρ.rnd (ρ.rnd c + ρ.rnd (ρ.rnd x * ρ.rnd y)) = _; rw [hc, hx, hy]
  · show ρ.rnd (ρ.rnd c - ρ.rnd (ρ.rnd x * ρ.rnd y)) = _; rw [hc, hx, hy]

/-- **C82** when nothing is contracted the program is the one of C61: the dot product -/
theorem c82_never (n : ℕ) (a b : Vec (Fu ρ (Contract.never ρ))) :
    (Ops.dot n a b).val = (Ops.dot n (fun i => (⟨(a i).val, (a i).repr⟩ : Fl ρ)) (fun i => ⟨(b i).val, (b i).repr⟩)).val := by
  unfold Ops.dot
  induction n with
  | zero => rfl
  | succ n ih =>
    rw [forN_succ, forN_succ, Fu.val_add, Fl.val_add, ih]
    rfl

/-- **C82** the dot product stays symmetric bit for bit if the policy does not depend on the order of the factors -/
theorem c82_dot_comm (hϰ : ∀ x y, ϰ.prod x y = ϰ.prod y x) (n : ℕ) (a b : Vec (Fu ρ ϰ)) : Ops.dot n a b = Ops.dot n b a := by
  unfold Ops.dot
  apply forN_congr
  intro i t _
  have : a i * b i = b i * a i := by
    apply Fu.ext
    · rw [Fu.val_mul, Fu.val_mul, mul_comm]
    · rw [Fu.ex_mul, Fu.ex_mul, hϰ]
  rw [this]

/-- **C82** without contraction `v ^ v` is exactly zero … -/
theorem c82_cross_self (v u : Vec (Fu ρ (Contract.never ρ))) (i : ℕ) (hi : i < 3) : (Ops.cross v v u i).val = 0 := by
  have key : ∀ p q : Fu ρ (Contract.never ρ), (p * q - q * p).val = 0 := by
    intro p q
    rw [Fu.val_sub, Fu.val_mul, Fu.ex_mul]
    show ρ.rnd (ρ.rnd (p.val * q.val) - ρ.rnd (q.val * p.val)) = 0
    rw [mul_comm, sub_self, Fl.rnd_zero]
  rcases (by omega : i = 0 ∨ i = 1 ∨ i = 2) with rfl | rfl | rfl
  · exact key _ _
  · exact key _ _
  · exact key _ _

/-- **C82** … with contraction it is not: for `v = (0, 2²⁷+1, 2²⁷+1)` in double precision the first element of `v ^ v` is `-1` -/
theorem c82_cross_self_wrong (u : Vec (Fu Rounding.double (Contract.always Rounding.double))) :
    let v : Vec (Fu Rounding.double (Contract.always Rounding.double)) := fun i => if i = 0 then 0 else Fu.of _ (2^27 + 1)
    (v 1).val = 2^27 + 1 ∧ (v 2).val = 2^27 + 1 ∧ (Ops.cross v v u 0).val = -1 := by
  intro v
  have hx : Rounding.double.rnd (2^27 + 1) = 2^27 + 1 := by
    have := rndNearest_int 53 (by norm_num) (2^27 + 1) (by norm_num)
    exact_mod_cast this
  have h1 : (v 1).val = 2^27 + 1 := hx
  have h2 : (v 2).val = 2^27 + 1 := hx
  have hsq : Rounding.double.rnd ((2^27 + 1) * (2^27 + 1)) = 2^54 + 2^28 := by
    show rndNearest 53 _ = _
    unfold rndNearest
    rw [ulp_of_binade 53 _ 54 (by norm_num) (by norm_num)]
    rw [QRF.rne_eq (k := 2^52 + 2^26) (by norm_num [abs_lt])]
    norm_num
  have hm1 : Rounding.double.rnd (-1) = -1 := by rw [Rounding.double.neg, Rounding.double.one]
  refine ⟨h1, h2, ?_⟩
  show (v 1 * v 2 - v 2 * v 1).val = -1
  rw [Fu.val_sub, Fu.val_mul, Fu.ex_mul, h1, h2, hsq]
  show Rounding.double.rnd (2^54 + 2^28 - (2^27+1) * (2^27+1)) = -1
  rw [show ((2:ℝ)^54 + 2^28 - (2^27+1) * (2^27+1)) = -1 by norm_num, hm1]

/-- the hypothesis of the dot product bound holds for fewer than `2^24` floats -/
example (n : ℕ) (hn : n < 2^24) (ϰ : Contract Rounding.float) (a b : Vec (Fu Rounding.float ϰ)) :
    |(Ops.dot n a b).val - ∑ i ∈ range n, (a i).val * (b i).val| ≤
      gam Rounding.float.u n * ∑ i ∈ range n, |(a i).val * (b i).val| := by
  have h : ((n:ℕ):ℝ) < 2^24 := by exact_mod_cast hn
  exact c82_dot n (by rw [Rounding.float_u, mul_one_div, div_lt_one (by positivity)]; exact h) a b

end TooN.Fused
