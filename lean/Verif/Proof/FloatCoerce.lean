import Verif.Proof.FloatRot
/-!
# Gram–Schmidt in floating point on a nearly orthonormal system
-/
set_option linter.unusedSectionVars false
namespace TooN
open Finset
open scoped Matrix

section
variable {n : ℕ}

theorem eucl_sq (v : Fin n → ℝ) : eucl v ^ 2 = v ⬝ᵥ v := by
  rw [eucl, Real.sq_sqrt (sum_nonneg fun i _ => sq_nonneg _), dotProduct]
  exact sum_congr rfl fun i _ => by ring

theorem abs_dot_le (v w : Fin n → ℝ) : |v ⬝ᵥ w| ≤ eucl v * eucl w := by
  have := Finset.sum_mul_sq_le_sq_mul_sq univ v w
  apply abs_le_of_sq_le_sq
  · rw [mul_pow, eucl, eucl, Real.sq_sqrt (sum_nonneg fun i _ => sq_nonneg _),
      Real.sq_sqrt (sum_nonneg fun i _ => sq_nonneg _)]
    exact this
  · exact mul_nonneg (eucl_nonneg _) (eucl_nonneg _)

theorem eucl_smul' (c : ℝ) (v : Fin n → ℝ) : eucl (c • v) = |c| * eucl v := by
  have : eucl (c • v) = eucl (fun i => |c| * v i) := by
    simp [eucl, mul_pow]
  rw [this, eucl_smul _ (abs_nonneg c)]

theorem eucl_sub_comm (v w : Fin n → ℝ) : eucl (v - w) = eucl (w - v) := by
  have : v - w = (-1 : ℝ) • (w - v) := by simp
  rw [this, eucl_smul']; simp

theorem eucl_le_of (v w : Fin n → ℝ) {d : ℝ} (h : eucl (v - w) ≤ d) : eucl v ≤ eucl w + d := by
  have := eucl_add w (v - w); rw [add_sub_cancel] at this; linarith

/-- normalising a vector at most doubles its distance from a unit vector -/
theorem unit_dist (v q : Fin n → ℝ) (hv : 0 < eucl v) (hq : eucl q = 1) {d : ℝ} (h : eucl (v - q) ≤ d) :
    eucl ((1 / eucl v) • v - q) ≤ 2 * d := by
  have e1 : (1 / eucl v) • v - q = ((1 / eucl v - 1) • v) + (v - q) := by rw [sub_smul, one_smul]; abel
  rw [e1]
  refine le_trans (eucl_add _ _) ?_
  rw [eucl_smul']
  have h1 : |1 / eucl v - 1| * eucl v = |1 - eucl v| := by
    rw [← abs_of_pos hv, ← abs_mul, abs_of_pos hv]; congr 1; rw [sub_mul, one_div_mul_cancel hv.ne', one_mul]
  have h2 := eucl_le_of v q h
  have h3 := eucl_le_of q v (d := d) (by rw [eucl_sub_comm]; exact h)
  have h4 : |1 - eucl v| ≤ d := by rw [abs_le]; constructor <;> linarith
  rw [h1]; linarith

end

namespace FlRot
variable {ρ : Rounding} {n : ℕ}

theorem gam_le {u : ℝ} (h0 : 0 ≤ u) (hu : u ≤ 1 / 10000) (k : ℕ) (hk : k ≤ 6) : gam u k ≤ (k + 1 / 100) * u := by
  have hk' : (k:ℝ) ≤ 6 := by exact_mod_cast hk
  have hk0 : (0:ℝ) ≤ k := Nat.cast_nonneg k
  have h1 : (k:ℝ) * u ≤ 6 / 10000 := by nlinarith
  rw [gam, div_le_iff₀ (by linarith)]
  have : (k + 1 / 100) * u * (1 - k * u) - k * u = u * (1 / 100 * (1 - k * u) - k * (k * u)) := by ring
  have h2 : 0 ≤ 1 / 100 * (1 - k * u) - k * (k * u) := by nlinarith
  nlinarith [mul_nonneg h0 h2]

/-- the computed unit vector -/
theorem unitFl_near (hn : n ≤ 3) (hu : ρ.u ≤ 1 / 10000) (v w : Vec (Fl ρ)) (hv : 0 < eucl (asV n (rvec v))) :
    ∃ r, unitFl n v w = some r ∧
      eucl (asV n (rvec r) - (1 / eucl (asV n (rvec v))) • asV n (rvec v)) ≤ 7 * ρ.u := by
  have h0 := ρ.u_nonneg
  have hn' : (n:ℝ) ≤ 3 := by exact_mod_cast hn
  have hex : ∃ i, i < n ∧ (v i).val ≠ 0 := by
    by_contra hc
    push Not at hc
    have : eucl (asV n (rvec v)) = 0 := by
      rw [eucl, Real.sqrt_eq_zero']
      refine le_of_eq (sum_eq_zero fun i _ => ?_)
      have := hc i i.2
      simp [rvec, this]
    linarith
  obtain ⟨r, hr, hb⟩ := (c61_unit (ρ := ρ) n (by nlinarith) v w hex).1
  refine ⟨r, hr, ?_⟩
  have hsum : Real.sqrt (∑ i ∈ range n, (v i).val ^ 2) = eucl (asV n (rvec v)) := by
    rw [eucl, Finset.sum_range]; rfl
  rw [hsum] at hb
  have hg : 0 ≤ gam ρ.u (n + 3) := gam_nonneg h0 ρ.u_lt_one (by push_cast; nlinarith)
  refine le_trans (eucl_mono (w := fun i => gam ρ.u (n + 3) * ((1 / eucl (asV n (rvec v))) • asV n (rvec v)) i) ?_) ?_
  · intro i
    have := hb i i.2
    rw [abs_mul, abs_of_nonneg hg]
    simpa [rvec, div_eq_inv_mul] using this
  · rw [eucl_smul _ hg, eucl_smul', abs_of_pos (by positivity), one_div_mul_cancel hv.ne', mul_one]
    have := gam_le h0 hu (n + 3) (by omega)
    push_cast at this
    nlinarith

/-- the computed rejection -/
theorem reject_near (hn : n ≤ 3) (hu : ρ.u ≤ 1 / 10000) (r m w : Vec (Fl ρ)) (hr : eucl (asV n (rvec r)) ≤ 101 / 100) :
    eucl (asV n (rvec (reject n r m w)) -
      (asV n (rvec m) - (asV n (rvec r) ⬝ᵥ asV n (rvec m)) • asV n (rvec r))) ≤ 10 * ρ.u * eucl (asV n (rvec m)) := by
  have h0 := ρ.u_nonneg
  have hn' : (n:ℝ) ≤ 3 := by exact_mod_cast hn
  have hnu : n * ρ.u < 1 := by nlinarith
  have hd := c61_dot (ρ := ρ) n hnu r m
  have hg := gam_le h0 hu n (by omega)
  have hN := eucl_nonneg (asV n (rvec m))
  have hr0 := eucl_nonneg (asV n (rvec r))
  -- the dot product
  have hd1 : |(Ops.dot n r m).val - asV n (rvec r) ⬝ᵥ asV n (rvec m)| ≤ 4 * ρ.u * eucl (asV n (rvec m)) := by
    rw [Finset.sum_range, Finset.sum_range] at hd
    have cs := abs_dot_le (fun i => |asV n (rvec r) i|) (fun i => |asV n (rvec m) i|)
    rw [eucl_abs, eucl_abs] at cs
    have e2 : (∑ i : Fin n, |(r i).val * (m i).val|) = (fun i => |asV n (rvec r) i|) ⬝ᵥ (fun i => |asV n (rvec m) i|) := by
      simp [dotProduct, rvec, abs_mul]
    rw [e2] at hd
    have h1 := le_trans (le_abs_self _) cs
    have hg0 : 0 ≤ gam ρ.u n := gam_nonneg h0 ρ.u_lt_one hnu
    have h2 : eucl (asV n (rvec r)) * eucl (asV n (rvec m)) ≤ 101 / 100 * eucl (asV n (rvec m)) :=
      mul_le_mul_of_nonneg_right hr hN
    have h3 := mul_le_mul_of_nonneg_left (le_trans h1 h2) hg0
    have h4 : gam ρ.u n ≤ 301 / 100 * ρ.u := by nlinarith
    have h5 := mul_le_mul_of_nonneg_right h4 (by positivity : 0 ≤ 101 / 100 * eucl (asV n (rvec m)))
    refine le_trans hd (le_trans h3 (le_trans h5 ?_))
    nlinarith [mul_nonneg h0 hN]
  have cs := abs_dot_le (asV n (rvec r)) (asV n (rvec m))
  have e3 : ∀ i, i < n → (reject n r m w i) = m i - r i * Ops.dot n r m := by
    intro i hi
    unfold reject
    rw [forN_vecupd _ (fun i x => x - _), if_pos hi, Ops.applyScalarV, forN_vecset, if_pos hi]
  generalize Ops.dot n r m = d at *
  generalize hR : asV n (rvec r) = R at *
  generalize hM : asV n (rvec m) = M at *
  have hda : |d.val| ≤ 102 / 100 * eucl M := by
    have : |d.val| ≤ |R ⬝ᵥ M| + |d.val - R ⬝ᵥ M| := by
      have := abs_add_le (R ⬝ᵥ M) (d.val - R ⬝ᵥ M); rwa [add_sub_cancel] at this
    have h2 : eucl R * eucl M ≤ 101 / 100 * eucl M := mul_le_mul_of_nonneg_right hr hN
    nlinarith [mul_nonneg h0 hN]
  -- the scaled vector and the subtraction
  set P : Fin n → ℝ := fun i => (r i * d).val with hP
  have hp : eucl (P - d.val • R) ≤ 2 * ρ.u * eucl M := by
    refine le_trans (eucl_mono (w := fun i => ρ.u * (d.val • R) i) ?_) ?_
    · intro i
      have := ρ.err ((r i).val * d.val)
      rw [abs_mul, abs_of_nonneg h0]
      have e4 : (d.val • R) i = (r i).val * d.val := by rw [← hR]; simp [rvec, mul_comm]
      rw [Pi.sub_apply, e4]
      exact this
    · rw [eucl_smul _ h0, eucl_smul']
      have := mul_le_mul hda hr hr0 (by positivity)
      nlinarith [mul_nonneg h0 hN]
  have hPn : eucl P ≤ 104 / 100 * eucl M := by
    have h1 := eucl_le_of P (d.val • R) hp
    rw [eucl_smul'] at h1
    have := mul_le_mul hda hr hr0 (by positivity)
    nlinarith [mul_nonneg h0 hN]
  have hs : eucl (asV n (rvec (reject n r m w)) - (M - P)) ≤ 3 * ρ.u * eucl M := by
    refine le_trans (eucl_mono (w := fun i => ρ.u * (M - P) i) ?_) ?_
    · intro i
      have := ρ.err ((m i).val - (r i * d).val)
      rw [abs_mul, abs_of_nonneg h0]
      have e4 : asV n (rvec (reject n r m w)) i = ρ.rnd ((m i).val - (r i * d).val) := by
        simp only [asV_apply, rvec]
        rw [e3 i i.2]; rfl
      have e5 : (M - P) i = (m i).val - (r i * d).val := by rw [← hM]; rfl
      rw [Pi.sub_apply, e4, e5]
      exact this
    · rw [eucl_smul _ h0]
      have := eucl_sub M P
      nlinarith [mul_nonneg h0 hN]
  have e6 : asV n (rvec (reject n r m w)) - (M - (R ⬝ᵥ M) • R) =
      (asV n (rvec (reject n r m w)) - (M - P)) + (((-1 : ℝ) • (P - d.val • R)) + (-1 : ℝ) • ((d.val - R ⬝ᵥ M) • R)) := by
    rw [sub_smul]; simp only [neg_smul, one_smul]; abel
  rw [e6]
  have k1 := eucl_add (asV n (rvec (reject n r m w)) - (M - P)) (((-1 : ℝ) • (P - d.val • R)) + (-1 : ℝ) • ((d.val - R ⬝ᵥ M) • R))
  have k2 := eucl_add ((-1 : ℝ) • (P - d.val • R)) ((-1 : ℝ) • ((d.val - R ⬝ᵥ M) • R))
  rw [eucl_smul', eucl_smul', eucl_smul'] at k2
  have k3 := mul_le_mul hd1 hr hr0 (by positivity)
  simp only [abs_neg, abs_one, one_mul] at k2
  nlinarith [mul_nonneg h0 hN]

/-! ## one vector of the process -/

variable (hn : n ≤ 3) (hu : ρ.u ≤ 1 / 10000)
include hn hu

/-- what is known about a finished row `r` that should be close to the unit vector `q` -/
structure Row (u : ℝ) (r q : Fin n → ℝ) (δ : ℝ) : Prop where
  len : |r ⬝ᵥ r - 1| ≤ 15 * u
  le : eucl r ≤ 101 / 100
  near : eucl (r - q) ≤ δ

omit hn hu in
theorem len_of (hu : ρ.u ≤ 1 / 10000) (r v : Fin n → ℝ) (hv : eucl v = 1) (h : eucl (r - v) ≤ 7 * ρ.u) :
    |r ⬝ᵥ r - 1| ≤ 15 * ρ.u ∧ eucl r ≤ 101 / 100 := by
  have h0 := ρ.u_nonneg
  have h1 := eucl_le_of r v h
  have h2 := eucl_le_of v r (d := 7 * ρ.u) (by rw [eucl_sub_comm]; exact h)
  rw [hv] at h1 h2
  refine ⟨?_, by linarith⟩
  rw [← eucl_sq, abs_le]
  constructor <;> nlinarith

/-- normalising a vector `w` that is close to `q` -/
theorem row_of (w W : Vec (Fl ρ)) (q : Fin n → ℝ) (hq : eucl q = 1) (δ : ℝ) (hδ : δ ≤ 1 / 2)
    (h : eucl (asV n (rvec w) - q) ≤ δ) :
    ∃ r, unitFl n w W = some r ∧ Row ρ.u (asV n (rvec r)) q (2 * δ + 7 * ρ.u) ∧
      ∀ (s : Fin n → ℝ) (B : ℝ), eucl s ≤ 101 / 100 → |s ⬝ᵥ asV n (rvec w)| ≤ B →
        |s ⬝ᵥ asV n (rvec r)| ≤ B / (1 - δ) + 8 * ρ.u := by
  have h0 := ρ.u_nonneg
  have h2 := eucl_le_of q (asV n (rvec w)) (d := δ) (by rw [eucl_sub_comm]; exact h)
  rw [hq] at h2
  have hv : 0 < eucl (asV n (rvec w)) := by linarith
  obtain ⟨r, e, hr⟩ := unitFl_near hn hu w W hv
  generalize asV n (rvec w) = w at *
  generalize hR : asV n (rvec r) = R at *
  have hu1 : eucl ((1 / eucl w) • w) = 1 := by
    rw [eucl_smul', abs_of_pos (by positivity), one_div_mul_cancel hv.ne']
  obtain ⟨l1, l2⟩ := len_of hu R _ hu1 hr
  refine ⟨r, e, ⟨hR ▸ l1, hR ▸ l2, ?_⟩, ?_⟩
  · rw [hR]
    have e1 : R - q = (R - (1 / eucl w) • w) + ((1 / eucl w) • w - q) := by abel
    rw [e1]
    refine le_trans (eucl_add _ _) ?_
    have := unit_dist w q hv hq h
    linarith
  · intro s B hs hB
    rw [hR]
    have e1 : s ⬝ᵥ R = s ⬝ᵥ (R - (1 / eucl w) • w) + (1 / eucl w) * (s ⬝ᵥ w) := by
      rw [dotProduct_sub, dotProduct_smul, smul_eq_mul]; ring
    rw [e1]
    refine le_trans (abs_add_le _ _) ?_
    have h3 := abs_dot_le s (R - (1 / eucl w) • w)
    have h4 := mul_le_mul hs hr (eucl_nonneg _) (by norm_num)
    have h5 : |1 / eucl w * (s ⬝ᵥ w)| ≤ B / (1 - δ) := by
      rw [abs_mul, abs_of_pos (by positivity : 0 < 1 / eucl w), one_div, inv_mul_eq_div]
      exact div_le_div₀ (le_trans (abs_nonneg _) hB) hB (by linarith) (by linarith)
    linarith

/-- rejecting from a finished row -/
theorem reject_of (r m W : Vec (Fl ρ)) (q p : Fin n → ℝ) (hq : eucl q = 1) (hp : eucl p = 1) (hqp : q ⬝ᵥ p = 0)
    (δ ε : ℝ) (hε : ε ≤ 1 / 5) (hr : Row ρ.u (asV n (rvec r)) q δ) (hm : eucl (asV n (rvec m) - p) ≤ ε) :
    |asV n (rvec r) ⬝ᵥ asV n (rvec (reject n r m W))| ≤ 27 * ρ.u * (1 + ε) ∧
    |asV n (rvec r) ⬝ᵥ asV n (rvec m)| ≤ δ * (1 + ε) + ε ∧
    eucl (asV n (rvec (reject n r m W)) - p) ≤ ε + 101 / 100 * (δ * (1 + ε) + ε) + 10 * ρ.u * (1 + ε) ∧
    ∀ s : Fin n → ℝ, eucl s ≤ 101 / 100 →
      |s ⬝ᵥ asV n (rvec (reject n r m W))| ≤ |s ⬝ᵥ asV n (rvec m)| +
        (δ * (1 + ε) + ε) * |s ⬝ᵥ asV n (rvec r)| + 11 * ρ.u * (1 + ε) := by
  have h0 := ρ.u_nonneg
  have hw := reject_near hn hu r m W hr.le
  obtain ⟨r1, r2, r3⟩ := hr
  generalize asV n (rvec (reject n r m W)) = w at *
  generalize asV n (rvec r) = r at *
  generalize asV n (rvec m) = m at *
  have hε0 := le_trans (eucl_nonneg _) hm
  have hδ0 := le_trans (eucl_nonneg _) r3
  have hmn : eucl m ≤ 1 + ε := by have := eucl_le_of m p hm; linarith
  have hm0 := eucl_nonneg m
  have hw' : eucl (w - (m - (r ⬝ᵥ m) • r)) ≤ 10 * ρ.u * (1 + ε) := le_trans hw (mul_le_mul_of_nonneg_left hmn (by positivity))
  have hrm : |r ⬝ᵥ m| ≤ δ * (1 + ε) + ε := by
    have e1 : r ⬝ᵥ m = (r - q) ⬝ᵥ m + q ⬝ᵥ (m - p) := by
      rw [sub_dotProduct, dotProduct_sub, hqp]; ring
    rw [e1]
    refine le_trans (abs_add_le _ _) ?_
    have h1 := abs_dot_le (r - q) m
    have h2 := abs_dot_le q (m - p)
    rw [hq] at h2
    have := mul_le_mul r3 hmn hm0 hδ0
    linarith
  have hrm2 : |r ⬝ᵥ m| ≤ 101 / 100 * (1 + ε) :=
    le_trans (abs_dot_le r m) (mul_le_mul r2 hmn hm0 (by norm_num))
  refine ⟨?_, hrm, ?_, ?_⟩
  · have e1 : r ⬝ᵥ w = r ⬝ᵥ (w - (m - (r ⬝ᵥ m) • r)) + (r ⬝ᵥ m) * (1 - r ⬝ᵥ r) := by
      simp only [dotProduct_sub, dotProduct_smul, smul_eq_mul]; ring
    rw [e1]
    refine le_trans (abs_add_le _ _) ?_
    have h1 := abs_dot_le r (w - (m - (r ⬝ᵥ m) • r))
    have h2 := mul_le_mul r2 hw' (eucl_nonneg _) (by norm_num)
    rw [abs_mul, abs_sub_comm 1]
    have h3 := mul_le_mul hrm2 r1 (abs_nonneg _) (by positivity)
    have : 0 ≤ ρ.u * (1 + ε) := by positivity
    nlinarith
  · have e1 : w - p = (w - (m - (r ⬝ᵥ m) • r)) + ((m - p) + (-(r ⬝ᵥ m)) • r) := by rw [neg_smul]; abel
    rw [e1]
    have k1 := eucl_add (w - (m - (r ⬝ᵥ m) • r)) ((m - p) + (-(r ⬝ᵥ m)) • r)
    have k2 := eucl_add (m - p) ((-(r ⬝ᵥ m)) • r)
    rw [eucl_smul', abs_neg] at k2
    have k3 := mul_le_mul hrm r2 (eucl_nonneg _) (by positivity)
    nlinarith
  · intro s hs
    have e1 : s ⬝ᵥ w = s ⬝ᵥ (w - (m - (r ⬝ᵥ m) • r)) + (s ⬝ᵥ m + -((r ⬝ᵥ m) * (s ⬝ᵥ r))) := by
      simp only [dotProduct_sub, dotProduct_smul, smul_eq_mul]; ring
    rw [e1]
    have k1 := abs_add_le (s ⬝ᵥ (w - (m - (r ⬝ᵥ m) • r))) (s ⬝ᵥ m + -((r ⬝ᵥ m) * (s ⬝ᵥ r)))
    have k2 := abs_add_le (s ⬝ᵥ m) (-((r ⬝ᵥ m) * (s ⬝ᵥ r)))
    rw [abs_neg, abs_mul] at k2
    have k3 := mul_le_mul_of_nonneg_right hrm (abs_nonneg (s ⬝ᵥ r))
    have k4 := abs_dot_le s (w - (m - (r ⬝ᵥ m) • r))
    have k5 := mul_le_mul hs hw' (eucl_nonneg _) (by norm_num)
    have : 0 ≤ ρ.u * (1 + ε) := by positivity
    nlinarith

end FlRot
end TooN
