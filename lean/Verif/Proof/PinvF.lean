import Verif.Model.PinvF
import Verif.Proof.Float
/-! # Pseudo-inverse solves in rounded arithmetic: proofs -/
set_option linter.unusedSectionVars false
namespace TooN
open scoped Classical in
noncomputable instance Fl.decLE {ρ : Rounding} : DecidableLE (Fl ρ) := fun _ _ => Classical.propDecidable _
/-- `fabs` -/
noncomputable def Fl.abs {ρ : Rounding} (a : Fl ρ) : Fl ρ :=
  ⟨|a.val|, by rcases abs_choice a.val with h | h <;> rw [h]; exact a.repr; rw [ρ.neg, a.repr]⟩
theorem Fl.le_def {ρ : Rounding} (a b : Fl ρ) : a ≤ b ↔ a.val ≤ b.val := Iff.rfl
@[simp] theorem Fl.val_abs {ρ : Rounding} (a : Fl ρ) : a.abs.val = |a.val| := rfl

namespace PinvF
open Finset TooN.Ops
variable {ρ : Rounding}

/-- `y_l = inv_l * (row l of W · b)` followed by a row of the left factor -/
theorem core_back (k m : ℕ) (hN : ((k + m + 2 : ℕ) : ℝ) * ρ.u < 1) (a : Vec (Fl ρ)) (inv y : Vec (Fl ρ)) (W : Mat (Fl ρ)) (b : Vec (Fl ρ))
    (sp : ℕ → ℝ) (hsp : ∀ l, l < k → ∃ g, Fac ρ.u 1 g ∧ (inv l).val = sp l * g)
    (hy : ∀ l, l < k → y l = inv l * dot m (W l) b) :
    |(dot k a y).val - ∑ l ∈ range k, (a l).val * sp l * ∑ j ∈ range m, (W l j).val * (b j).val| ≤
      gam ρ.u (k + m + 2) * ∑ l ∈ range k, |(a l).val| * |sp l| * ∑ j ∈ range m, |(W l j).val| * |(b j).val| := by
  have h0 := ρ.u_nonneg
  have h1 := ρ.u_lt_one
  obtain ⟨f, hf, e⟩ := dot_fac k a y
  rw [e, ← sum_sub_distrib, mul_sum]
  refine le_trans (abs_sum_le_sum_abs _ _) (sum_le_sum fun l hl => ?_)
  have hl := mem_range.1 hl
  obtain ⟨g, hg, eg⟩ := hsp l hl
  obtain ⟨f2, hf2, e2⟩ := dot_fac m (W l) b
  obtain ⟨p, hp, ep⟩ := Fl.mul_fac (inv l) (dot m (W l) b)
  rw [hy l hl, ep, eg, e2]
  have key := fac_sum_err h0 h1 (N := k + m + 2) hN (range m) (fun j => (a l).val * sp l * ((W l j).val * (b j).val))
    (fun j => f l * g * p * f2 j) (fun j hj => by
      have := (((hf l hl).mul h0 h1 hg).mul h0 h1 hp).mul h0 h1 (hf2 j (mem_range.1 hj))
      rwa [show k + 1 + 1 + m = k + m + 2 by omega] at this)
  refine le_trans (le_of_eq ?_) (le_trans key (le_of_eq ?_))
  · congr 1
    congr 1
    · rw [mul_sum, sum_mul, mul_sum, sum_mul]
      exact sum_congr rfl fun j _ => by ring
    · rw [mul_sum]
  · congr 1
    rw [mul_sum]
    exact sum_congr rfl fun j _ => by rw [abs_mul, abs_mul, abs_mul]

/-- a row whose products with the column carry the factor of the diagonal -/
theorem core_pinv (k : ℕ) (hN : ((k + 2 : ℕ) : ℝ) * ρ.u < 1) (p q : Vec (Fl ρ)) (t : ℕ → ℝ)
    (hp : ∀ l, l < k → ∃ g, Fac ρ.u 2 g ∧ (p l).val * (q l).val = t l * g) :
    |(dot k p q).val - ∑ l ∈ range k, t l| ≤ gam ρ.u (k + 2) * ∑ l ∈ range k, |t l| := by
  have h0 := ρ.u_nonneg
  have h1 := ρ.u_lt_one
  obtain ⟨f, hf, e⟩ := dot_fac k p q
  have hp' : ∀ l, ∃ g, l < k → Fac ρ.u 2 g ∧ (p l).val * (q l).val = t l * g := by
    intro l
    by_cases hl : l < k
    · obtain ⟨g, hg⟩ := hp l hl; exact ⟨g, fun _ => hg⟩
    · exact ⟨0, fun h => absurd h hl⟩
  choose g hg using hp'
  have key := fac_sum_err h0 h1 (N := k + 2) hN (range k) t (fun l => g l * f l) (fun l hl => by
    have := (hg l (mem_range.1 hl)).1.mul h0 h1 (hf l (mem_range.1 hl))
    rwa [show 2 + k = k + 2 by omega] at this)
  rw [e]
  refine le_trans (le_of_eq ?_) key
  congr 1
  congr 1
  refine sum_congr rfl fun l hl => ?_
  rw [(hg l (mem_range.1 hl)).2]; ring

theorem mulMV_val (R C : ℕ) (A : Mat (Fl ρ)) (v u : Vec (Fl ρ)) (i : ℕ) (hi : i < R) : mulMV R C A v u i = dot C (A i) v := by
  rw [mulMV, forN_vecset, if_pos hi]
theorem diagmultVV_val (n : ℕ) (a b u : Vec (Fl ρ)) (i : ℕ) (hi : i < n) : diagmultVV n a b u i = a i * b i := by
  rw [diagmultVV, pairwiseV, forN_vecset, if_pos hi]
theorem mulMM_val (R M C : ℕ) (A B u : Mat (Fl ρ)) (r c : ℕ) (hr : r < R) (hc : c < C) :
    mulMM R M C A B u r c = dot M (A r) (Mat.T B c) := by
  rw [mulMM, evalM_apply, if_pos ⟨hr, hc⟩]
theorem diagmultVM_val (R C : ℕ) (v : Vec (Fl ρ)) (A u : Mat (Fl ρ)) (r c : ℕ) (hr : r < R) (hc : c < C) :
    diagmultVM R C v A u r c = v r * A r c := by
  rw [diagmultVM, evalM_apply, if_pos ⟨hr, hc⟩]
theorem diagmultMV_val (R C : ℕ) (v : Vec (Fl ρ)) (A u : Mat (Fl ρ)) (r c : ℕ) (hr : r < R) (hc : c < C) :
    diagmultMV R C A v u r c = A r c * v c := by
  rw [diagmultMV, evalMc_apply, if_pos ⟨hr, hc⟩]

/-- entries computed by a loop that fails where `bad` and stores `val i` otherwise -/
theorem loop_diag (n : ℕ) (body : ℕ → Vec (Fl ρ) → Option (Vec (Fl ρ))) (v : ℕ → Fl ρ)
    (hb : ∀ i, i < n → ∀ t, body i t = some (Vec.set t i (v i))) (u : Vec (Fl ρ)) :
    ∃ inv, forNM n body u = some inv ∧ ∀ i, i < n → inv i = v i := by
  refine forNM_total (fun k inv => ∀ i, i < k → inv i = v i) n body u (fun i hi => absurd hi (Nat.not_lt_zero i)) ?_
  intro i t hi ht
  refine ⟨_, hb i hi t, fun j hj => ?_⟩
  by_cases e : j = i
  · subst e; rw [Vec.set_self]
  · rw [Vec.set_ne _ _ _ _ e]; exact ht j (by omega)

theorem inv_fac (a : Fl ρ) : ∃ g, Fac ρ.u 1 g ∧ ((1 : Fl ρ) / a).val = 1 / a.val * g := by
  simpa using Fl.div_fac 1 a

/-- the product loop -/
theorem prod_fac (n : ℕ) (d : Vec (Fl ρ)) (s : Fl ρ) :
    ∃ f, Fac ρ.u n f ∧ (forN n (fun i r => r * d i) s).val = s.val * (∏ i ∈ range n, (d i).val) * f := by
  have h0 := ρ.u_nonneg
  have h1 := ρ.u_lt_one
  induction n with
  | zero => exact ⟨1, Fac.one h0 h1 0, by simp⟩
  | succ n ih =>
    obtain ⟨f, hf, e⟩ := ih
    obtain ⟨g, hg, eg⟩ := Fl.mul_fac (forN n (fun i r => r * d i) s) (d n)
    refine ⟨f * g, hf.mul h0 h1 hg, ?_⟩
    rw [forN_succ, eg, e, prod_range_succ]; ring

end PinvF
end TooN
