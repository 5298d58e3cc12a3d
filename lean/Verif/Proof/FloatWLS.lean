import Verif.Spec.FloatWLSCall
import Verif.Proof.WLS
import Verif.Proof.Mixed
import Verif.Model.WLSMixed
/-!
# Rounding errors of the accumulated normal equations
-/
set_option linter.unusedSectionVars false
namespace TooN.WLS
open Finset
variable {ρ : Rounding}

theorem diag_add_apply {K : Type} [Add K] (n : ℕ) (p : ℕ → K) (C : Mat K) (i j : ℕ) :
    forN n (fun i C => Mat.set C i i (C i i + p i)) C i j = if i = j ∧ i < n then C i j + p i else C i j := by
  induction n with
  | zero => rw [forN_zero, if_neg (by omega)]
  | succ n ih =>
    rw [forN_succ]
    by_cases h : i = n ∧ j = n
    · obtain ⟨rfl, rfl⟩ := h
      rw [Mat.set_self, if_pos (by omega), ih, if_neg (by omega)]
    · rw [Mat.set_ne _ _ _ _ _ _ h, ih]
      by_cases h2 : i = j ∧ i < n
      · rw [if_pos h2, if_pos (by omega)]
      · rw [if_neg h2, if_neg (by omega)]

theorem addUpperURow_apply {K D : Type} (o : JwOps K D) (k off r : Nat) (a : D) (J : Vec K) (C : Mat K) (i j : Nat) (hr : r ≤ k) :
    forRange r k (fun c C => Mat.set C (r + off) (c + off) (o.accC (C (r + off) (c + off)) a (J c))) C i j =
      if i = r + off ∧ r + off ≤ j ∧ j < k + off then o.accC (C i j) a (J (j - off)) else C i j := by
  refine forRange_inv (fun q (D : Mat K) => ∀ i j, D i j =
      if i = r + off ∧ r + off ≤ j ∧ j < q + off then o.accC (C i j) a (J (j - off)) else C i j) r k hr _ C ?_ ?_ i j
  · intro i j; rw [if_neg (by omega)]
  · intro q D hq1 hq2 ih i j
    by_cases h : i = r + off ∧ j = q + off
    · obtain ⟨rfl, rfl⟩ := h
      rw [Mat.set_self, if_pos (by omega), ih, if_neg (by omega)]
      congr 2; omega
    · rw [Mat.set_ne _ _ _ _ _ _ h, ih]
      by_cases h2 : i = r + off ∧ r + off ≤ j ∧ j < q + off
      · rw [if_pos h2, if_pos (by omega)]
      · rw [if_neg h2, if_neg (by omega)]

theorem addUpperU_spec {K D : Type} (o : JwOps K D) (k off : Nat) (m : K) (J : Vec K) (weight : K) (s : St K) :
    (∀ i, (addUpperU o k off m J weight s).v i =
      if off ≤ i ∧ i < off + k then o.accV (s.v i) m (o.jw weight (J (i - off))) else s.v i) ∧
    (∀ i j, (addUpperU o k off m J weight s).C i j =
      if off ≤ i ∧ i ≤ j ∧ j < off + k then o.accC (s.C i j) (o.jw weight (J (i - off))) (J (j - off)) else s.C i j) := by
  unfold addUpperU
  have h := (forN_inv (fun q (t : St K) =>
    (∀ i, t.v i = if off ≤ i ∧ i < off + q then o.accV (s.v i) m (o.jw weight (J (i - off))) else s.v i) ∧
    (∀ i j, t.C i j = if off ≤ i ∧ i < off + q ∧ i ≤ j ∧ j < off + k then
      o.accC (s.C i j) (o.jw weight (J (i - off))) (J (j - off)) else s.C i j)) k (fun r s =>
    let Jw := o.jw weight (J r)
    let s : St K := { s with v := Vec.set s.v (r + off) (o.accV (s.v (r + off)) m Jw) }
    { s with C := forRange r k (fun c C => Mat.set C (r + off) (c + off) (o.accC (C (r + off) (c + off)) Jw (J c))) s.C })
    s ?_ ?_)
  · refine ⟨h.1, fun i j => ?_⟩
    rw [h.2]
    by_cases hc : off ≤ i ∧ i ≤ j ∧ j < off + k
    · rw [if_pos hc, if_pos (by omega)]
    · rw [if_neg hc, if_neg (by omega)]
  · exact ⟨fun i => by rw [if_neg (by omega)], fun i j => by rw [if_neg (by omega)]⟩
  · intro q t hq ⟨hv, hC⟩
    refine ⟨fun i => ?_, fun i j => ?_⟩
    · show Vec.set t.v (q + off) (o.accV (t.v (q + off)) m (o.jw weight (J q))) i = _
      by_cases h : i = q + off
      · subst h
        rw [Vec.set_self, if_pos (by omega), hv, if_neg (by omega)]
        congr 3; omega
      · rw [Vec.set_ne _ _ _ _ h, hv]
        by_cases h2 : off ≤ i ∧ i < off + q
        · rw [if_pos h2, if_pos (by omega)]
        · rw [if_neg h2, if_neg (by omega)]
    · show forRange q k (fun c C => Mat.set C (q + off) (c + off)
        (o.accC (C (q + off) (c + off)) (o.jw weight (J q)) (J c))) t.C i j = _
      rw [addUpperURow_apply _ _ _ _ _ _ _ _ _ (by omega)]
      by_cases h : i = q + off ∧ q + off ≤ j ∧ j < k + off
      · rw [if_pos h, if_pos (by omega), hC, if_neg (by omega)]
        have : i - off = q := by omega
        rw [this]
      · rw [if_neg h, hC]
        by_cases h2 : off ≤ i ∧ i < off + q ∧ i ≤ j ∧ j < off + k
        · rw [if_pos h2, if_pos (by omega)]
        · rw [if_neg h2, if_neg (by omega)]

/-- what the expressions with `Jw` must satisfy, with unit roundoff `u` -/
structure JwOk {D : Type} (ρ : Rounding) (u : ℝ) (o : JwOps (Fl ρ) D) : Prop where
  C : ∀ c w a b, ∃ f g, Fac u 1 f ∧ Fac u 3 g ∧ (o.accC c (o.jw w a) b).val = c.val * f + w.val * a.val * b.val * g
  v : ∀ c w a b, ∃ f g, Fac u 1 f ∧ Fac u 3 g ∧ (o.accV c b (o.jw w a)).val = c.val * f + w.val * b.val * a.val * g

theorem upd_fac (c w a b : Fl ρ) :
    ∃ f g, Fac ρ.u 1 f ∧ Fac ρ.u 3 g ∧ (c + w * a * b).val = c.val * f + w.val * a.val * b.val * g := by
  have h0 := ρ.u_nonneg
  have h1 := ρ.u_lt_one
  obtain ⟨f1, hf1, e1⟩ := Fl.mul_fac w a
  obtain ⟨f2, hf2, e2⟩ := Fl.mul_fac (w * a) b
  obtain ⟨f3, hf3, e3⟩ := Fl.add_fac c (w * a * b)
  exact ⟨f3, f1 * f2 * f3, hf3, (hf1.mul h0 h1 hf2).mul h0 h1 hf3, by rw [e3, e2, e1]; ring⟩

theorem upd_fac' (c w a b : Fl ρ) :
    ∃ f g, Fac ρ.u 1 f ∧ Fac ρ.u 3 g ∧ (c + b * (w * a)).val = c.val * f + w.val * b.val * a.val * g := by
  have h0 := ρ.u_nonneg
  have h1 := ρ.u_lt_one
  obtain ⟨f1, hf1, e1⟩ := Fl.mul_fac w a
  obtain ⟨f2, hf2, e2⟩ := Fl.mul_fac b (w * a)
  obtain ⟨f3, hf3, e3⟩ := Fl.add_fac c (b * (w * a))
  exact ⟨f3, f1 * f2 * f3, hf3, (hf1.mul h0 h1 hf2).mul h0 h1 hf3, by rw [e3, e2, e1]; ring⟩

theorem jwOk_std (ρ : Rounding) : JwOk ρ ρ.u (JwOps.std (Fl ρ)) := ⟨upd_fac, upd_fac'⟩

/-- `Precision` fits into `double`: the sums are rounded to `double` and then to `Precision` -/
theorem jwOk_wide {ρ δ : Rounding} (hf : Fits ρ δ) (h : u2 ρ δ < 1) : JwOk ρ (u2 ρ δ) (JwOps.mixed ρ δ δ) := by
  have h0 := u2_nonneg ρ δ
  have key : ∀ (c w a b : Fl ρ), ∃ f g, Fac (u2 ρ δ) 1 f ∧ Fac (u2 ρ δ) 3 g ∧
      ρ.rnd (δ.rnd (c.val + δ.rnd (δ.rnd (ρ.rnd (w.val * a.val)) * b.val))) = c.val * f + w.val * a.val * b.val * g := by
    intro c w a b
    rw [hf _ (ρ.idem (w.val * a.val))]
    obtain ⟨f1, hf1, e1⟩ := rnd_fac ρ (w.val * a.val)
    obtain ⟨f2, hf2, e2⟩ := rnd_fac δ (ρ.rnd (w.val * a.val) * b.val)
    obtain ⟨f3, hf3, e3⟩ := rnd2_fac h (c.val + δ.rnd (ρ.rnd (w.val * a.val) * b.val))
    have g1 := hf1.weaken h (u2_ge_left ρ δ) (hf1.pos ρ.u_nonneg ρ.u_lt_one).le
    have g2 := hf2.weaken h (u2_ge_right ρ δ) (hf2.pos δ.u_nonneg δ.u_lt_one).le
    exact ⟨f3, f1 * f2 * f3, hf3, (g1.mul h0 h g2).mul h0 h hf3, by rw [e3, e2, e1]; ring⟩
  refine ⟨key, fun c w a b => ?_⟩
  obtain ⟨f, g, a1, a2, a3⟩ := key c w a b
  refine ⟨f, g, a1, a2, ?_⟩
  show ρ.rnd (δ.rnd (c.val + δ.rnd (b.val * δ.rnd (ρ.rnd (w.val * a.val))))) = _
  rw [mul_comm b.val, a3]; ring

/-- `double` fits into `Precision` (`long double`): only `Jw` is rounded to `double` -/
theorem jwOk_narrow {ρ δ : Rounding} (h : u2 ρ δ < 1) : JwOk ρ (u2 ρ δ) (JwOps.mixed ρ δ ρ) := by
  have h0 := u2_nonneg ρ δ
  have hc : u2 δ ρ = u2 ρ δ := by unfold u2; ring
  have key : ∀ (c w a b : Fl ρ), ∃ f g, Fac (u2 ρ δ) 1 f ∧ Fac (u2 ρ δ) 3 g ∧
      ρ.rnd (ρ.rnd (c.val + ρ.rnd (δ.rnd (ρ.rnd (w.val * a.val)) * b.val))) = c.val * f + w.val * a.val * b.val * g := by
    intro c w a b
    rw [ρ.idem]
    obtain ⟨f1, hf1, e1⟩ := rnd2_fac (ρ := δ) (δ := ρ) (by rw [hc]; exact h) (w.val * a.val)
    rw [hc] at hf1
    obtain ⟨f2, hf2, e2⟩ := rnd_fac ρ (δ.rnd (ρ.rnd (w.val * a.val)) * b.val)
    obtain ⟨f3, hf3, e3⟩ := rnd_fac ρ (c.val + ρ.rnd (δ.rnd (ρ.rnd (w.val * a.val)) * b.val))
    have g2 := hf2.weaken h (u2_ge_left ρ δ) (hf2.pos ρ.u_nonneg ρ.u_lt_one).le
    have g3 := hf3.weaken h (u2_ge_left ρ δ) (hf3.pos ρ.u_nonneg ρ.u_lt_one).le
    exact ⟨f3, f1 * f2 * f3, g3, (hf1.mul h0 h g2).mul h0 h g3, by rw [e3, e2, e1]; ring⟩
  refine ⟨key, fun c w a b => ?_⟩
  obtain ⟨f, g, a1, a2, a3⟩ := key c w a b
  refine ⟨f, g, a1, a2, ?_⟩
  show ρ.rnd (ρ.rnd (c.val + ρ.rnd (b.val * δ.rnd (ρ.rnd (w.val * a.val))))) = _
  rw [mul_comm b.val, a3]; ring

section gen
variable {u : ℝ} (u1 : u < 1) (hru : ρ.u ≤ u) {D : Type} {o : JwOps (Fl ρ) D} (ho : JwOk ρ u o)
include u1 hru

theorem add_fac3 (c p : Fl ρ) :
    ∃ f g, Fac u 1 f ∧ Fac u 3 g ∧ (c + p).val = c.val * f + p.val * g := by
  obtain ⟨f3, hf3, e3⟩ := Fl.add_fac c p
  have g3 := hf3.weaken u1 hru (hf3.pos ρ.u_nonneg ρ.u_lt_one).le
  exact ⟨f3, f3, g3, g3.mono (le_trans ρ.u_nonneg hru) u1 (by norm_num), by rw [e3]; ring⟩

theorem same_fac (c t : ℝ) (ht : t = 0) : ∃ f g, Fac u 1 f ∧ Fac u 3 g ∧ c = c * f + t * g :=
  ⟨1, 1, Fac.one (le_trans ρ.u_nonneg hru) u1 1, Fac.one (le_trans ρ.u_nonneg hru) u1 3, by rw [ht]; ring⟩

include ho in
/-- one call: matrix -/
theorem call_mat (n : ℕ) (z : Call (Fl ρ)) (s : St (Fl ρ)) (i j : ℕ) (hij : i ≤ j) (hj : j < n) :
    ∃ f g, Fac u 1 f ∧ Fac u 3 g ∧ ((z.runU o n s).C i j).val = (s.C i j).val * f + z.info.mat i j * g := by
  cases z with
  | prior p =>
    show ∃ f g, _ ∧ _ ∧ (forN n (fun i C => Mat.set C i i (C i i + p)) s.C i j).val = _ * f + (if i = j then p.val else 0) * g
    rw [diag_add_apply n (fun _ => p)]
    by_cases h : i = j
    · rw [if_pos ⟨h, by omega⟩, if_pos h]; exact add_fac3 u1 hru _ _
    · rw [if_neg (fun k => h k.1), if_neg h]; exact same_fac u1 hru _ _ rfl
  | priors p =>
    show ∃ f g, _ ∧ _ ∧ (forN n (fun i C => Mat.set C i i (C i i + p i)) s.C i j).val = _ * f + (if i = j then rvec p i else 0) * g
    rw [diag_add_apply n p]
    by_cases h : i = j
    · rw [if_pos ⟨h, by omega⟩, if_pos h]; exact add_fac3 u1 hru _ _
    · rw [if_neg (fun k => h k.1), if_neg h]; exact same_fac u1 hru _ _ rfl
  | mJ m J w =>
    have := (addUpperU_spec o n 0 m J w s).2 i j
    show ∃ f g, _ ∧ _ ∧ ((addUpperU o n 0 m J w s).C i j).val = _ * f + (w.val * rvec J i * rvec J j) * g
    rw [this, if_pos (by omega)]
    exact ho.C _ _ _ _
  | sparse m k J1 idx w =>
    have := (addUpperU_spec o k idx m J1 w s).2 i j
    show ∃ f g, _ ∧ _ ∧ ((addUpperU o k idx m J1 w s).C i j).val = _ * f + (w.val *
      (if idx ≤ i ∧ i < idx + k then (J1 (i - idx)).val else 0) *
      (if idx ≤ j ∧ j < idx + k then (J1 (j - idx)).val else 0)) * g
    rw [this]
    by_cases h : idx ≤ i ∧ i ≤ j ∧ j < idx + k
    · rw [if_pos h, if_pos (by omega), if_pos (by omega)]; exact ho.C _ _ _ _
    · rw [if_neg h]
      apply same_fac u1 hru
      by_cases h1 : idx ≤ i ∧ i < idx + k
      · rw [if_neg (c := idx ≤ j ∧ j < idx + k) (by omega), mul_zero]
      · rw [if_neg h1, mul_zero, zero_mul]

include ho in
/-- one call: right-hand side -/
theorem call_rhs (n : ℕ) (z : Call (Fl ρ)) (s : St (Fl ρ)) (i : ℕ) (hi : i < n) :
    ∃ f g, Fac u 1 f ∧ Fac u 3 g ∧ ((z.runU o n s).v i).val = (s.v i).val * f + z.info.rhs i * g := by
  cases z with
  | prior p => exact same_fac u1 hru _ _ rfl
  | priors p => exact same_fac u1 hru _ _ rfl
  | mJ m J w =>
    have := (addUpperU_spec o n 0 m J w s).1 i
    show ∃ f g, _ ∧ _ ∧ ((addUpperU o n 0 m J w s).v i).val = _ * f + (w.val * m.val * rvec J i) * g
    rw [this, if_pos (by omega)]
    exact ho.v _ _ _ _
  | sparse m k J1 idx w =>
    have := (addUpperU_spec o k idx m J1 w s).1 i
    show ∃ f g, _ ∧ _ ∧ ((addUpperU o k idx m J1 w s).v i).val = _ * f + (w.val * m.val *
      (if idx ≤ i ∧ i < idx + k then (J1 (i - idx)).val else 0)) * g
    rw [this]
    by_cases h : idx ≤ i ∧ i < idx + k
    · rw [if_pos h, if_pos h]; exact ho.v _ _ _ _
    · rw [if_neg h, if_neg h]
      exact same_fac u1 hru _ _ (by rw [mul_zero])

/-- a quantity that starts at zero and is updated with rounding -/
theorem accumulate (q : ℕ → ℝ) (t : ℕ → ℝ) (h0 : q 0 = 0)
    (hs : ∀ k, ∃ f g, Fac u 1 f ∧ Fac u 3 g ∧ q (k + 1) = q k * f + t k * g) (N : ℕ) :
    ∃ F : ℕ → ℝ, (∀ k, Fac u (N + 2) (F k)) ∧ q N = ∑ k ∈ range N, t k * F k := by
  have u0 := le_trans ρ.u_nonneg hru
  induction N with
  | zero => exact ⟨fun _ => 1, fun k => Fac.one u0 u1 _, by simp [h0]⟩
  | succ N ih =>
    obtain ⟨F, hF, e⟩ := ih
    obtain ⟨f, g, hf, hg, e2⟩ := hs N
    refine ⟨fun k => if k = N then g else F k * f, fun k => ?_, ?_⟩
    · dsimp only
      split_ifs
      · exact hg.mono u0 u1 (by omega)
      · exact ((hF k).mul u0 u1 hf).mono u0 u1 (by omega)
    · dsimp only
      rw [e2, e, sum_range_succ, if_pos rfl, sum_mul]
      congr 1
      refine sum_congr rfl fun k hk => ?_
      rw [if_neg (by have := mem_range.1 hk; omega)]; ring

include ho in
theorem session_mat (n N : ℕ) (calls : ℕ → Call (Fl ρ)) (C0 : Mat (Fl ρ)) (v0 : Vec (Fl ρ)) (i j : ℕ) (hij : i ≤ j) (hj : j < n) :
    ∃ F : ℕ → ℝ, (∀ k, Fac u (N + 2) (F k)) ∧
      ((sessionU o n N calls C0 v0).C i j).val = ∑ k ∈ range N, (calls k).info.mat i j * F k := by
  refine accumulate u1 hru (fun N => ((sessionU o n N calls C0 v0).C i j).val) (fun k => (calls k).info.mat i j) ?_ ?_ N
  · show (Ops.zerosM n n C0 i j).val = 0
    rw [Ops.zerosM, evalM_apply, if_pos (by omega)]; rfl
  · intro k
    exact call_mat u1 hru ho n (calls k) (sessionU o n k calls C0 v0) i j hij hj

include ho in
theorem session_rhs (n N : ℕ) (calls : ℕ → Call (Fl ρ)) (C0 : Mat (Fl ρ)) (v0 : Vec (Fl ρ)) (i : ℕ) (hi : i < n) :
    ∃ F : ℕ → ℝ, (∀ k, Fac u (N + 2) (F k)) ∧
      ((sessionU o n N calls C0 v0).v i).val = ∑ k ∈ range N, (calls k).info.rhs i * F k := by
  refine accumulate u1 hru (fun N => ((sessionU o n N calls C0 v0).v i).val) (fun k => (calls k).info.rhs i) ?_ ?_ N
  · show (Ops.zerosV n v0 i).val = 0
    rw [Ops.zerosV, forN_vecset, if_pos hi]; rfl
  · intro k
    exact call_rhs u1 hru ho n (calls k) (sessionU o n k calls C0 v0) i hi

end gen

/-- Cauchy–Schwarz for the absolute values of the contributions -/
theorem abs_info_le (n N : ℕ) (z : ℕ → Info) (hz : ∀ k, k < N → (z k).Nonneg n) (i j : ℕ) (hi : i < n) (hj : j < n) :
    ∑ k ∈ range N, |(z k).mat i j| ≤
      Real.sqrt (∑ k ∈ range N, (z k).mat i i) * Real.sqrt (∑ k ∈ range N, (z k).mat j j) := by
  have hd : ∀ k, k < N → ∀ i, i < n → 0 ≤ (z k).mat i i := by
    intro k hk i hi
    have := hz k hk
    cases h : z k with
    | prior p => rw [h] at this; simp only [Info.mat, if_true]; exact this i hi
    | meas m J w => rw [h] at this; simp only [Info.mat, mul_assoc]; exact mul_nonneg this (mul_self_nonneg _)
  have h1 : ∀ k ∈ range N, |(z k).mat i j| ≤ Real.sqrt ((z k).mat i i) * Real.sqrt ((z k).mat j j) := by
    intro k hk
    have hk := mem_range.1 hk
    have := hz k hk
    rw [← Real.sqrt_mul (hd k hk i hi)]
    apply Real.le_sqrt_of_sq_le
    rw [sq_abs]
    cases h : z k with
    | prior p =>
      rw [h] at this
      simp only [Info.mat, if_true]
      split_ifs with e
      · subst e; rw [sq]
      · rw [zero_pow (by norm_num)]; exact mul_nonneg (this i hi) (this j hj)
    | meas m J w => simp only [Info.mat]; apply le_of_eq; ring
  refine le_trans (sum_le_sum h1) ?_
  refine le_trans (Real.sum_mul_le_sqrt_mul_sqrt _ _ _) (le_of_eq ?_)
  congr 2
  · exact sum_congr rfl fun k hk => Real.sq_sqrt (hd k (mem_range.1 hk) i hi)
  · exact sum_congr rfl fun k hk => Real.sq_sqrt (hd k (mem_range.1 hk) j hj)

theorem abs_rhs_le (n N : ℕ) (z : ℕ → Info) (hz : ∀ k, k < N → (z k).Nonneg n) (i : ℕ) (hi : i < n) :
    ∑ k ∈ range N, |(z k).rhs i| ≤
      Real.sqrt (∑ k ∈ range N, (z k).mat i i) * Real.sqrt (∑ k ∈ range N, (z k).energy) := by
  have hd : ∀ k, k < N → 0 ≤ (z k).mat i i := by
    intro k hk
    have := hz k hk
    cases h : z k with
    | prior p => rw [h] at this; simp only [Info.mat, if_true]; exact this i hi
    | meas m J w => rw [h] at this; simp only [Info.mat, mul_assoc]; exact mul_nonneg this (mul_self_nonneg _)
  have he : ∀ k, k < N → 0 ≤ (z k).energy := by
    intro k hk
    have := hz k hk
    cases h : z k with
    | prior p => exact le_rfl
    | meas m J w => rw [h] at this; exact mul_nonneg this (sq_nonneg _)
  have h1 : ∀ k ∈ range N, |(z k).rhs i| ≤ Real.sqrt ((z k).mat i i) * Real.sqrt ((z k).energy) := by
    intro k hk
    have hk := mem_range.1 hk
    rw [← Real.sqrt_mul (hd k hk)]
    apply Real.le_sqrt_of_sq_le
    rw [sq_abs]
    cases h : z k with
    | prior p => simp [Info.rhs, Info.energy]
    | meas m J w => simp only [Info.mat, Info.rhs, Info.energy]; apply le_of_eq; ring
  refine le_trans (sum_le_sum h1) ?_
  refine le_trans (Real.sum_mul_le_sqrt_mul_sqrt _ _ _) (le_of_eq ?_)
  congr 2
  · exact sum_congr rfl fun k hk => Real.sq_sqrt (hd k (mem_range.1 hk))
  · exact sum_congr rfl fun k hk => Real.sq_sqrt (he k (mem_range.1 hk))

end TooN.WLS
