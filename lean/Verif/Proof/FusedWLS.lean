import Verif.Proof.Fused
import Verif.Proof.FloatWLS
/-!
# Rounding errors of the accumulated normal equations, with contracted multiply-add
-/
set_option linter.unusedSectionVars false
namespace TooN.Fused
open TooN.WLS
open Finset
variable {ρ : Rounding} {ϰ : Contract ρ}

/-- the real vector represented by a vector of such numbers -/
def uvec (v : Vec (Fu ρ ϰ)) : Vec ℝ := fun i => (v i).val

/-- what a call means: priors are diagonal, a sparse Jacobian is zero outside its block (wls.h:64-66, 73-77, 93-97, 148-154) -/
noncomputable def info : Call (Fu ρ ϰ) → Info
  | .prior p => .prior fun _ => p.val
  | .priors p => .prior (uvec p)
  | .mJ m J w => .meas m.val (uvec J) w.val
  | .sparse m k J1 idx w => .meas m.val (fun j => if idx ≤ j ∧ j < idx + k then (J1 (j - idx)).val else 0) w.val

/-- what the expressions with `Jw` must satisfy, with unit roundoff `u` -/
structure JwOk {D : Type} (u : ℝ) (o : JwOps (Fu ρ ϰ) D) : Prop where
  C : ∀ c w a b, ∃ f g, Fac u 1 f ∧ Fac u 3 g ∧ (o.accC c (o.jw w a) b).val = c.val * f + w.val * a.val * b.val * g
  v : ∀ c w a b, ∃ f g, Fac u 1 f ∧ Fac u 3 g ∧ (o.accV c b (o.jw w a)).val = c.val * f + w.val * b.val * a.val * g

theorem upd_fac (c w a b : Fu ρ ϰ) :
    ∃ f g, Fac ρ.u 1 f ∧ Fac ρ.u 3 g ∧ (c + w * a * b).val = c.val * f + w.val * a.val * b.val * g := by
  have h0 := ρ.u_nonneg
  have h1 := ρ.u_lt_one
  obtain ⟨f1, hf1, e1⟩ := Fu.mul_fac w a
  obtain ⟨f2, hf2, e2⟩ := Fu.mul_ex (w * a) b
  obtain ⟨f3, hf3, e3⟩ := Fu.add_fac c (w * a * b)
  exact ⟨f3, f1 * f2 * f3, hf3, (hf1.mul h0 h1 hf2).mul h0 h1 hf3, by rw [e3, e2, e1]; ring⟩

theorem upd_fac' (c w a b : Fu ρ ϰ) :
    ∃ f g, Fac ρ.u 1 f ∧ Fac ρ.u 3 g ∧ (c + b * (w * a)).val = c.val * f + w.val * b.val * a.val * g := by
  have h0 := ρ.u_nonneg
  have h1 := ρ.u_lt_one
  obtain ⟨f1, hf1, e1⟩ := Fu.mul_fac w a
  obtain ⟨f2, hf2, e2⟩ := Fu.mul_ex b (w * a)
  obtain ⟨f3, hf3, e3⟩ := Fu.add_fac c (b * (w * a))
  exact ⟨f3, f1 * f2 * f3, hf3, (hf1.mul h0 h1 hf2).mul h0 h1 hf3, by rw [e3, e2, e1]; ring⟩

theorem jwOk_std : JwOk ρ.u (JwOps.std (Fu ρ ϰ)) := ⟨upd_fac, upd_fac'⟩

section gen
variable {u : ℝ} (u1 : u < 1) (hru : ρ.u ≤ u) {D : Type} {o : JwOps (Fu ρ ϰ) D} (ho : JwOk u o)
include u1 hru

theorem add_fac3 (c p : Fu ρ ϰ) :
    ∃ f g, Fac u 1 f ∧ Fac u 3 g ∧ (c + p).val = c.val * f + p.val * g := by
  obtain ⟨f3, hf3, e3⟩ := Fu.add_fac c p
  obtain ⟨f4, hf4, e4⟩ := rnd_fac ρ p.ex
  rw [p.rel] at e4
  have g3 := hf3.weaken u1 hru (hf3.pos ρ.u_nonneg ρ.u_lt_one).le
  have g4 := hf4.weaken u1 hru (hf4.pos ρ.u_nonneg ρ.u_lt_one).le
  have h0 := le_trans ρ.u_nonneg hru
  have p4 := (hf4.pos ρ.u_nonneg ρ.u_lt_one).ne'
  exact ⟨f3, f4⁻¹ * f3, g3, ((g4.inv h0 u1).mul h0 u1 g3).mono h0 u1 (by norm_num), by rw [e3, e4]; field_simp⟩

theorem same_fac (c t : ℝ) (ht : t = 0) : ∃ f g, Fac u 1 f ∧ Fac u 3 g ∧ c = c * f + t * g :=
  ⟨1, 1, Fac.one (le_trans ρ.u_nonneg hru) u1 1, Fac.one (le_trans ρ.u_nonneg hru) u1 3, by rw [ht]; ring⟩

include ho in
/-- one call: matrix -/
theorem call_mat (n : ℕ) (z : Call (Fu ρ ϰ)) (s : St (Fu ρ ϰ)) (i j : ℕ) (hij : i ≤ j) (hj : j < n) :
    ∃ f g, Fac u 1 f ∧ Fac u 3 g ∧ ((z.runU o n s).C i j).val = (s.C i j).val * f + (info z).mat i j * g := by
  cases z with
  | prior p =>
    show ∃ f g, _ ∧ _ ∧ (forN n (fun i C => Mat.set C i i (C i i + p)) s.C i j).val = _ * f + (if i = j then p.val else 0) * g
    rw [diag_add_apply n (fun _ => p)]
    by_cases h : i = j
    · rw [if_pos ⟨h, by omega⟩, if_pos h]; exact add_fac3 u1 hru _ _
    · rw [if_neg (fun k => h k.1), if_neg h]; exact same_fac u1 hru _ _ rfl
  | priors p =>
    show ∃ f g, _ ∧ _ ∧ (forN n (fun i C => Mat.set C i i (C i i + p i)) s.C i j).val = _ * f + (if i = j then uvec p i else 0) * g
    rw [diag_add_apply n p]
    by_cases h : i = j
    · rw [if_pos ⟨h, by omega⟩, if_pos h]; exact add_fac3 u1 hru _ _
    · rw [if_neg (fun k => h k.1), if_neg h]; exact same_fac u1 hru _ _ rfl
  | mJ m J w =>
    have := (addUpperU_spec o n 0 m J w s).2 i j
    show ∃ f g, _ ∧ _ ∧ ((addUpperU o n 0 m J w s).C i j).val = _ * f + (w.val * uvec J i * uvec J j) * g
    rw [this, if_pos (by omega)]
    exact ho.C _ _ _ _
  | sparse m k J1 idx w =>
    have := (addUpperU_spec o k idx m J1 w s).2 i j
    show ∃ f g, _ ∧ _ ∧ ((addUpperU o k idx m J1 w s).C i j).val = _ * f + (w.val *
      (if idx ≤ i ∧ i < idx + k then (J1 (i - idx)).val else 0) *
      (if idx ≤ j ∧ j < idx + k then (J1 (j - idx)).val else 0)) * g
    rw [this]
    by_cases h : idx ≤ i ∧ i ≤ j ∧ j < idx + k
    · rw [if_pos h, if_pos (by omega), if_pos (by omega)]; exact ho.C _ _ _ _
    · rw [if_neg h]
      apply same_fac u1 hru
      by_cases h1 : idx ≤ i ∧ i < idx + k
      · rw [if_neg (c := idx ≤ j ∧ j < idx + k) (by omega), mul_zero]
      · rw [if_neg h1, mul_zero, zero_mul]

include ho in
/-- one call: right-hand side -/
theorem call_rhs (n : ℕ) (z : Call (Fu ρ ϰ)) (s : St (Fu ρ ϰ)) (i : ℕ) (hi : i < n) :
    ∃ f g, Fac u 1 f ∧ Fac u 3 g ∧ ((z.runU o n s).v i).val = (s.v i).val * f + (info z).rhs i * g := by
  cases z with
  | prior p => exact same_fac u1 hru _ _ rfl
  | priors p => exact same_fac u1 hru _ _ rfl
  | mJ m J w =>
    have := (addUpperU_spec o n 0 m J w s).1 i
    show ∃ f g, _ ∧ _ ∧ ((addUpperU o n 0 m J w s).v i).val = _ * f + (w.val * m.val * uvec J i) * g
    rw [this, if_pos (by omega)]
    exact ho.v _ _ _ _
  | sparse m k J1 idx w =>
    have := (addUpperU_spec o k idx m J1 w s).1 i
    show ∃ f g, _ ∧ _ ∧ ((addUpperU o k idx m J1 w s).v i).val = _ * f + (w.val * m.val *
      (if idx ≤ i ∧ i < idx + k then (J1 (i - idx)).val else 0)) * g
    rw [this]
    by_cases h : idx ≤ i ∧ i < idx + k
    · rw [if_pos h, if_pos h]; exact ho.v _ _ _ _
    · rw [if_neg h, if_neg h]
      exact same_fac u1 hru _ _ (by rw [mul_zero])

/-- a quantity that starts at zero and is updated with rounding -/
theorem accumulate (q : ℕ → ℝ) (t : ℕ → ℝ) (h0 : q 0 = 0)
    (hs : ∀ k, ∃ f g, Fac u 1 f ∧ Fac u 3 g ∧ q (k + 1) = q k * f + t k * g) (N : ℕ) :
    ∃ F : ℕ → ℝ, (∀ k, Fac u (N + 2) (F k)) ∧ q N = ∑ k ∈ range N, t k * F k := by
  have u0 := le_trans ρ.u_nonneg hru
  induction N with
  | zero => exact ⟨fun _ => 1, fun k => Fac.one u0 u1 _, by simp [h0]⟩
  | succ N ih =>
    obtain ⟨F, hF, e⟩ := ih
    obtain ⟨f, g, hf, hg, e2⟩ := hs N
    refine ⟨fun k => if k = N then g else F k * f, fun k => ?_, ?_⟩
    · dsimp only
      split_ifs
      · exact hg.mono u0 u1 (by omega)
      · exact ((hF k).mul u0 u1 hf).mono u0 u1 (by omega)
    · dsimp only
      rw [e2, e, sum_range_succ, if_pos rfl, sum_mul]
      congr 1
      refine sum_congr rfl fun k hk => ?_
      rw [if_neg (by have := mem_range.1 hk; omega)]; ring

include ho in
theorem session_mat (n N : ℕ) (calls : ℕ → Call (Fu ρ ϰ)) (C0 : Mat (Fu ρ ϰ)) (v0 : Vec (Fu ρ ϰ)) (i j : ℕ) (hij : i ≤ j) (hj : j < n) :
    ∃ F : ℕ → ℝ, (∀ k, Fac u (N + 2) (F k)) ∧
      ((sessionU o n N calls C0 v0).C i j).val = ∑ k ∈ range N, (info (calls k)).mat i j * F k := by
  refine accumulate u1 hru (fun N => ((sessionU o n N calls C0 v0).C i j).val) (fun k => (info (calls k)).mat i j) ?_ ?_ N
  · show (Ops.zerosM n n C0 i j).val = 0
    rw [Ops.zerosM, evalM_apply, if_pos (by omega)]; rfl
  · intro k
    exact call_mat u1 hru ho n (calls k) (sessionU o n k calls C0 v0) i j hij hj

include ho in
theorem session_rhs (n N : ℕ) (calls : ℕ → Call (Fu ρ ϰ)) (C0 : Mat (Fu ρ ϰ)) (v0 : Vec (Fu ρ ϰ)) (i : ℕ) (hi : i < n) :
    ∃ F : ℕ → ℝ, (∀ k, Fac u (N + 2) (F k)) ∧
      ((sessionU o n N calls C0 v0).v i).val = ∑ k ∈ range N, (info (calls k)).rhs i * F k := by
  refine accumulate u1 hru (fun N => ((sessionU o n N calls C0 v0).v i).val) (fun k => (info (calls k)).rhs i) ?_ ?_ N
  · show (Ops.zerosV n v0 i).val = 0
    rw [Ops.zerosV, forN_vecset, if_pos hi]; rfl
  · intro k
    exact call_rhs u1 hru ho n (calls k) (sessionU o n k calls C0 v0) i hi

end gen

end TooN.Fused
