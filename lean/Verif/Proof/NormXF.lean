import Verif.Proof.Fmt
import Verif.Props.MatFun
/-!
# Norms of matrices of finite numbers, in the format and in exact arithmetic
-/
set_option linter.unusedSectionVars false
namespace TooN.Special
open TooN.Ops Finset TooN.MatFun
open scoped Classical

variable {G : Grid}

theorem fin_lt_pinf {v : ℝ} {h} : (XF.fin v h : XF G) < .pinf := ⟨_, _, rfl, rfl, EReal.coe_lt_top v⟩
theorem not_pinf_lt (x : XF G) : ¬ (.pinf : XF G) < x := by
  rintro ⟨a, b, h1, h2, h3⟩
  change (some ⊤ : Option EReal) = some a at h1
  cases h1
  exact absurd h3 not_top_lt

/-- not negative and not NaN -/
def NN (x : XF G) : Prop := x = .pinf ∨ ∃ v, 0 ≤ v ∧ Is x v
/-- positive -/
def Pos (x : XF G) : Prop := x = .pinf ∨ ∃ v, 0 < v ∧ Is x v

theorem Pos.nn {x : XF G} (h : Pos x) : NN x := h.imp id fun ⟨v, h1, h2⟩ => ⟨v, h1.le, h2⟩

theorem zero_lt_iff {x : XF G} (h : NN x) : 0 < x ↔ Pos x := by
  rcases h with rfl | ⟨v, h1, ⟨h2, rfl⟩⟩
  · exact ⟨fun _ => Or.inl rfl, fun _ => fin_lt_pinf⟩
  · constructor
    · intro h
      exact Or.inr ⟨v, fin_lt.1 h, h2, rfl⟩
    · rintro (h | ⟨w, h3, h4⟩)
      · cases h
      · obtain ⟨h5, e⟩ := h4
        cases e
        exact fin_lt.2 h3

theorem nn_zero : NN (0 : XF G) := Or.inr ⟨0, le_refl _, is_zero⟩

theorem ofReal_nonneg {z : ℝ} (hz : 0 ≤ z) : XF.ofReal G z = .pinf ∨ Is (XF.ofReal G z) (G.rnd z) := by
  have h0 : 0 ≤ G.rnd z := by
    have := G.mono 0 z hz
    rwa [G.rnd_zero] at this
  by_cases h : |G.rnd z| ≤ G.big
  · exact Or.inr (is_ofReal h)
  · left
    rw [abs_of_nonneg h0] at h
    unfold XF.ofReal
    rw [dif_neg (fun hh => h hh.1), if_pos (not_le.1 h)]

theorem pos_fin {t : ℝ} {g} (h : Pos (XF.fin t g : XF G)) : 0 < t := by
  rcases h with h | ⟨s, hs, ⟨gs, es⟩⟩
  · cases h
  · cases es; exact hs

theorem nn_add {x y : XF G} (h1 : NN x) (h2 : NN y) : NN (x + y) ∧ (Pos x ∨ Pos y → Pos (x + y)) := by
  rcases h1 with rfl | ⟨v, hv, ⟨gv, rfl⟩⟩
  · have : (.pinf : XF G) + y = .pinf := by
      rcases h2 with rfl | ⟨w, hw, ⟨gw, rfl⟩⟩ <;> rfl
    rw [this]
    exact ⟨Or.inl rfl, fun _ => Or.inl rfl⟩
  · rcases h2 with rfl | ⟨w, hw, ⟨gw, rfl⟩⟩
    · exact ⟨Or.inl rfl, fun _ => Or.inl rfl⟩
    · have m1 := G.mono v (v + w) (by linarith)
      have m2 := G.mono w (v + w) (by linarith)
      rw [gv.1] at m1
      rw [gw.1] at m2
      have e : (XF.fin v gv : XF G) + .fin w gw = XF.ofReal G (v + w) := rfl
      rw [e]
      rcases ofReal_nonneg (G := G) (z := v + w) (by linarith) with h | h
      · exact ⟨Or.inl h, fun _ => Or.inl h⟩
      · refine ⟨Or.inr ⟨_, by linarith, h⟩, ?_⟩
        rintro (hh | hh)
        · have := pos_fin hh
          exact Or.inr ⟨_, by linarith, h⟩
        · have := pos_fin hh
          exact Or.inr ⟨_, by linarith, h⟩

theorem nn_smax {x y : XF G} (h1 : NN x) (h2 : NN y) : NN (smax x y) ∧ (Pos x ∨ Pos y → Pos (smax x y)) := by
  unfold smax
  rcases h1 with rfl | ⟨v, hv, ⟨gv, rfl⟩⟩
  · rw [if_neg (not_pinf_lt y)]
    exact ⟨Or.inl rfl, fun _ => Or.inl rfl⟩
  · rcases h2 with rfl | ⟨w, hw, ⟨gw, rfl⟩⟩
    · rw [if_pos fin_lt_pinf]
      exact ⟨Or.inl rfl, fun _ => Or.inl rfl⟩
    · by_cases h : v < w
      · rw [if_pos (fin_lt.2 h)]
        exact ⟨Or.inr ⟨w, hw, gw, rfl⟩, fun _ => Or.inr ⟨w, by linarith, gw, rfl⟩⟩
      · rw [if_neg (fun hh => h (fin_lt.1 hh))]
        refine ⟨Or.inr ⟨v, hv, gv, rfl⟩, ?_⟩
        rintro (hh | hh)
        · exact hh
        · exact Or.inr ⟨v, by linarith [pos_fin hh], gv, rfl⟩

/-- the norm of a matrix of finite numbers is positive iff one of them is not zero -/
theorem norm_pos_iff (R C : ℕ) (m : Mat (XF G)) (d : Mat ℝ) (h : ∀ r c, r < R → c < C → Is (m r c) (d r c)) :
    0 < normInfM XF.abs R C m ↔ ∃ r c, r < R ∧ c < C ∧ d r c ≠ 0 := by
  have hrow : ∀ r, r < R → ∀ k, k ≤ C → NN (forN k (fun c s => s + XF.abs (m r c)) 0) ∧
      ((∃ c, c < k ∧ d r c ≠ 0) → Pos (forN k (fun c s => s + XF.abs (m r c)) 0)) ∧
      ((∀ c, c < k → d r c = 0) → forN k (fun c s => s + XF.abs (m r c)) 0 = 0) := by
    intro r hr k
    induction k with
    | zero => exact fun _ => ⟨nn_zero, fun ⟨c, hc, _⟩ => by omega, fun _ => rfl⟩
    | succ k ih =>
      intro hk
      obtain ⟨i1, i2, i3⟩ := ih (by omega)
      have ha := (h r k hr (by omega)).abs
      have hn : NN (XF.abs (m r k)) := Or.inr ⟨_, abs_nonneg _, ha⟩
      rw [forN_succ]
      obtain ⟨j1, j2⟩ := nn_add i1 hn
      refine ⟨j1, ?_, ?_⟩
      · rintro ⟨c, hc, hd⟩
        rcases Nat.lt_succ_iff_lt_or_eq.1 hc with hc | rfl
        · exact j2 (Or.inl (i2 ⟨c, hc, hd⟩))
        · exact j2 (Or.inr (Or.inr ⟨_, abs_pos.2 hd, ha⟩))
      · intro hz
        rw [i3 (fun c hc => hz c (by omega))]
        have : XF.abs (m r k) = 0 := by
          obtain ⟨g, e⟩ := ha
          rw [e, zero_def]
          congr 1
          rw [hz k (by omega), abs_zero]
        rw [this]
        exact add_zero' 0
  have key : ∀ k, k ≤ R → NN (forN k (fun r n => smax n (forN C (fun c s => s + XF.abs (m r c)) 0)) 0) ∧
      ((∃ r c, r < k ∧ c < C ∧ d r c ≠ 0) → Pos (forN k (fun r n => smax n (forN C (fun c s => s + XF.abs (m r c)) 0)) 0)) ∧
      ((∀ r c, r < k → c < C → d r c = 0) → forN k (fun r n => smax n (forN C (fun c s => s + XF.abs (m r c)) 0)) 0 = 0) := by
    intro k
    induction k with
    | zero => exact fun _ => ⟨nn_zero, fun ⟨c, _, hc, _⟩ => by omega, fun _ => rfl⟩
    | succ k ih =>
      intro hk
      obtain ⟨i1, i2, i3⟩ := ih (by omega)
      obtain ⟨r1, r2, r3⟩ := hrow k (by omega) C (le_refl _)
      rw [forN_succ]
      obtain ⟨j1, j2⟩ := nn_smax i1 r1
      refine ⟨j1, ?_, ?_⟩
      · rintro ⟨r, c, hr, hc, hd⟩
        rcases Nat.lt_succ_iff_lt_or_eq.1 hr with hr | rfl
        · exact j2 (Or.inl (i2 ⟨r, c, hr, hc, hd⟩))
        · exact j2 (Or.inr (r2 ⟨c, hc, hd⟩))
      · intro hz
        rw [i3 (fun r c hr hc => hz r c (by omega) hc), r3 (fun c hc => hz k c (by omega) hc)]
        exact ite_self _
  obtain ⟨k1, k2, k3⟩ := key R (le_refl _)
  constructor
  · intro hpos
    by_contra hc
    push Not at hc
    unfold normInfM at hpos
    rw [k3 hc] at hpos
    exact absurd (fin_lt.1 hpos) (lt_irrefl _)
  · intro hex
    exact (zero_lt_iff k1).2 (k2 hex)

/-! ### Row sums -/
section
open scoped Matrix.Norms.Operator
variable {n : ℕ}

theorem row_le_norm (A : Sq n) (i : Fin n) : ∑ j, |A i j| ≤ ‖A‖ := by
  rw [Matrix.linfty_opNorm_def]
  have := Finset.le_sup (f := fun i : Fin n => ∑ j : Fin n, ‖A i j‖₊) (Finset.mem_univ i)
  have h2 : ((∑ j : Fin n, ‖A i j‖₊ : NNReal) : ℝ) = ∑ j, |A i j| := by
    push_cast
    exact sum_congr rfl fun j _ => Real.norm_eq_abs _
  rw [← h2]
  exact_mod_cast this

theorem entry_le_norm (A : Sq n) (i j : Fin n) : |A i j| ≤ ‖A‖ :=
  le_trans (single_le_sum (f := fun j => |A i j|) (fun _ _ => abs_nonneg _) (mem_univ j)) (row_le_norm A i)

theorem norm_le_rows (A : Sq n) {c : ℝ} (hc : 0 ≤ c) (h : ∀ i, ∑ j, |A i j| ≤ c) : ‖A‖ ≤ c := by
  rw [Matrix.linfty_opNorm_def]
  have : (Finset.univ : Finset (Fin n)).sup (fun i => ∑ j, ‖A i j‖₊) ≤ ⟨c, hc⟩ := by
    refine Finset.sup_le fun i _ => ?_
    have h2 : ((∑ j : Fin n, ‖A i j‖₊ : NNReal) : ℝ) = ∑ j, |A i j| := by
      push_cast
      exact sum_congr rfl fun j _ => Real.norm_eq_abs _
    have h3 : ((∑ j : Fin n, ‖A i j‖₊ : NNReal) : ℝ) ≤ c := by rw [h2]; exact h i
    exact_mod_cast h3
  exact_mod_cast this

/-- entrywise bounds carry over to the norm -/
theorem norm_le_of_entries (A B : Sq n) {c : ℝ} (hc : 0 ≤ c) (h : ∀ i j, |A i j| ≤ c * |B i j|) : ‖A‖ ≤ c * ‖B‖ := by
  refine norm_le_rows A (mul_nonneg hc (norm_nonneg _)) fun i => ?_
  refine le_trans (sum_le_sum fun j _ => h i j) ?_
  rw [← mul_sum]
  exact mul_le_mul_of_nonneg_left (row_le_norm B i) hc

theorem norm_prod_entries (m f : Sq n) (i : Fin n) : ∑ j, ∑ l, |m i l * f l j| ≤ ‖m‖ * ‖f‖ := by
  rw [sum_comm]
  have : ∀ l, ∑ j, |m i l * f l j| = |m i l| * ∑ j, |f l j| := by
    intro l
    rw [mul_sum]
    exact sum_congr rfl fun j _ => abs_mul _ _
  calc ∑ l, ∑ j, |m i l * f l j| = ∑ l, |m i l| * ∑ j, |f l j| := sum_congr rfl fun l _ => this l
    _ ≤ ∑ l, |m i l| * ‖f‖ := sum_le_sum fun l _ => mul_le_mul_of_nonneg_left (row_le_norm f l) (abs_nonneg _)
    _ = (∑ l, |m i l|) * ‖f‖ := by rw [sum_mul]
    _ ≤ _ := mul_le_mul_of_nonneg_right (row_le_norm m i) (norm_nonneg _)

theorem dot_le_norm (m f : Sq n) (i j : Fin n) : ∑ l, |m i l * f l j| ≤ ‖m‖ * ‖f‖ :=
  le_trans (single_le_sum (f := fun j => ∑ l, |m i l * f l j|) (fun _ _ => sum_nonneg fun _ _ => abs_nonneg _) (mem_univ j))
    (norm_prod_entries m f i)
end

end TooN.Special
