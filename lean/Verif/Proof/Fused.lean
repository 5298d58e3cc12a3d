import Verif.Model.Fused
import Verif.Proof.Float
/-! Rounding error analysis with contracted multiply-add: the basic loops. -/
set_option linter.unusedSectionVars false
namespace TooN
open Finset
variable {ρ : Rounding} {ϰ : Contract ρ}

theorem Fu.eq_zero_iff (a : Fu ρ ϰ) : a = 0 ↔ a.val = 0 := by
  constructor
  · rintro rfl; rfl
  · intro h
    have hex : a.ex = 0 := by
      by_contra hne
      exact rnd_ne_zero ρ hne (a.rel.trans h)
    exact Fu.ext h hex

theorem Fu.mul_fac (a b : Fu ρ ϰ) : ∃ f, Fac ρ.u 1 f ∧ (a * b).val = a.val * b.val * f :=
  rnd_fac ρ (a.val * b.val)
theorem Fu.mul_ex (a b : Fu ρ ϰ) : ∃ f, Fac ρ.u 1 f ∧ (a * b).ex = a.val * b.val * f := by
  rcases ϰ.ok a.val b.val with h | h
  · exact ⟨1, Fac.one ρ.u_nonneg ρ.u_lt_one 1, by rw [Fu.ex_mul, h, mul_one]⟩
  · obtain ⟨f, hf, e⟩ := rnd_fac ρ (a.val * b.val)
    exact ⟨f, hf, by rw [Fu.ex_mul, h, e]⟩
theorem Fu.add_fac (a b : Fu ρ ϰ) : ∃ f, Fac ρ.u 1 f ∧ (a + b).val = (a.val + b.ex) * f :=
  rnd_fac ρ (a.val + b.ex)
theorem Fu.sub_fac (a b : Fu ρ ϰ) : ∃ f, Fac ρ.u 1 f ∧ (a - b).val = (a.val - b.ex) * f :=
  rnd_fac ρ (a.val - b.ex)
theorem Fu.div_fac (a b : Fu ρ ϰ) : ∃ f, Fac ρ.u 1 f ∧ (a / b).val = a.val / b.val * f :=
  rnd_fac ρ (a.val / b.val)

namespace Fused

/-- summation: the loop of every accumulation, `s = 0; for i<n: s += t_i` (the first addition is exact up to the rounding of `t₀`) -/
theorem forN_add_fac (n : ℕ) (a b : ℕ → Fu ρ ϰ) :
    ∃ f : ℕ → ℝ, (∀ i, i < n → Fac ρ.u n (f i)) ∧
      (forN n (fun i s => s + a i * b i) (0 : Fu ρ ϰ)).val = ∑ i ∈ range n, (a i).val * (b i).val * f i := by
  have h0 := ρ.u_nonneg
  have h1 := ρ.u_lt_one
  induction n with
  | zero => exact ⟨fun _ => 1, by simp, by simp⟩
  | succ n ih =>
    obtain ⟨f, hf, e⟩ := ih
    rw [forN_succ]
    rcases Nat.eq_zero_or_pos n with hn | hn
    · subst hn
      obtain ⟨d, hd, ed⟩ := rnd_fac ρ ((a 0).val * (b 0).val)
      refine ⟨fun _ => d, fun i hi => hd, ?_⟩
      rw [forN_zero, Fu.val_add, Fu.val_zero, zero_add, Fu.ex_mul, sum_range_one]
      rcases ϰ.ok (a 0).val (b 0).val with h | h
      · rw [h, ed]
      · rw [h, ρ.idem, ed]
    · obtain ⟨c, hc, ec⟩ := Fu.add_fac (forN n (fun i s => s + a i * b i) (0 : Fu ρ ϰ)) (a n * b n)
      obtain ⟨d, hd, ed⟩ := Fu.mul_ex (a n) (b n)
      refine ⟨fun i => if i < n then f i * c else d * c, fun i hi => ?_, ?_⟩
      · dsimp only
        split_ifs with h
        · exact (hf i h).mul h0 h1 hc
        · exact (hd.mul h0 h1 hc).mono h0 h1 (by omega)
      · rw [ec, e, ed, sum_range_succ, add_mul, sum_mul]
        beta_reduce
        rw [if_neg (lt_irrefl n)]
        congr 1
        · refine sum_congr rfl fun i hi => ?_
          rw [if_pos (mem_range.1 hi)]; ring
        · ring

/-- the dot product of the library -/
theorem dot_fac (n : ℕ) (a b : Vec (Fu ρ ϰ)) :
    ∃ f : ℕ → ℝ, (∀ i, i < n → Fac ρ.u n (f i)) ∧
      (Ops.dot n a b).val = ∑ i ∈ range n, (a i).val * (b i).val * f i := forN_add_fac n a b

/-- the loop `v = r; for k<n: v -= p_k*q_k`: dividing out the rounding factor of the result -/
theorem forN_sub_fac (n : ℕ) (p q : ℕ → Fu ρ ϰ) (r : Fu ρ ϰ) :
    ∃ (g : ℝ) (f : ℕ → ℝ), Fac ρ.u n g ∧ (∀ k, k < n → Fac ρ.u n (f k)) ∧
      r.val = (forN n (fun k v => v - p k * q k) r).val * g +
        ∑ k ∈ range n, (p k).val * (q k).val * f k := by
  have h0 := ρ.u_nonneg
  have h1 := ρ.u_lt_one
  induction n with
  | zero => exact ⟨1, fun _ => 1, Fac.one h0 h1 _, by simp, by simp⟩
  | succ n ih =>
    obtain ⟨g, f, hg, hf, e⟩ := ih
    rw [forN_succ]
    set v := forN n (fun k v => v - p k * q k) r with hv
    obtain ⟨c, hc, ec⟩ := Fu.sub_fac v (p n * q n)
    obtain ⟨d, hd, ed⟩ := Fu.mul_ex (p n) (q n)
    have hc0 := (hc.pos h0 h1).ne'
    have ev : v.val = (v - p n * q n).val * c⁻¹ + (p n).val * (q n).val * d := by
      rw [ec, ed]; field_simp; ring
    refine ⟨c⁻¹ * g, fun k => if k < n then f k else d * g, ?_, ?_, ?_⟩
    · have := (hc.inv h0 h1).mul h0 h1 hg
      rwa [add_comm] at this
    · intro k hk
      dsimp only
      split_ifs with h
      · exact (hf k h).mono h0 h1 (by omega)
      · have := hd.mul h0 h1 hg
        rwa [add_comm] at this
    · rw [e, sum_range_succ]
      beta_reduce
      rw [if_neg (lt_irrefl n)]
      have : ∑ k ∈ range n, (p k).val * (q k).val * (if k < n then f k else d * g) =
          ∑ k ∈ range n, (p k).val * (q k).val * f k := by
        apply sum_congr rfl; intro k hk; rw [if_pos (mem_range.1 hk)]
      rw [this]
      linear_combination g * ev

/-- the same for a loop over `lo ≤ k < hi` -/
theorem forRange_sub_fac (lo hi : ℕ) (p q : ℕ → Fu ρ ϰ) (r : Fu ρ ϰ) :
    ∃ (g : ℝ) (f : ℕ → ℝ), Fac ρ.u (hi - lo) g ∧ (∀ k, lo ≤ k → k < hi → Fac ρ.u (hi - lo) (f k)) ∧
      r.val = (forRange lo hi (fun k v => v - p k * q k) r).val * g +
        ∑ k ∈ Ico lo hi, (p k).val * (q k).val * f k := by
  obtain ⟨g, f, hg, hf, e⟩ := forN_sub_fac (hi - lo) (fun k => p (lo + k)) (fun k => q (lo + k)) r
  refine ⟨g, fun k => f (k - lo), hg, fun k h1 h2 => hf _ (by omega), ?_⟩
  rw [sum_Ico_eq_sum_range]
  unfold forRange
  rw [e]
  congr 1
  apply sum_congr rfl
  intro k _
  dsimp only
  rw [show lo + k - lo = k by omega]

end Fused
end TooN
