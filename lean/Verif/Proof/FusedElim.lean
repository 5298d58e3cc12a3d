import Verif.Proof.Fused
import Verif.Proof.FloatElim
/-! Rounding error analysis of `gaussian_elimination`. -/
set_option linter.unusedSectionVars false
namespace TooN.Fused
open TooN.Elim
open Finset

/-! ### the floating-point program -/
variable {ρ : Rounding} {ϰ : Contract ρ}

/-- values of the augmented working matrix `[A | b]` -/
def sval (n : ℕ) (A b : Mat (Fu ρ ϰ)) : Mat ℝ := fun r c => if c < n then (A r c).val else (b r (c - n)).val

theorem fl_fabs (x : Fu ρ ϰ) : (fabs x).val = |x.val| := by
  unfold fabs
  split_ifs with h
  · rw [Fu.val_neg, abs_of_neg h]
  · rw [abs_of_nonneg (not_lt.1 h)]

theorem fpivot (n i : ℕ) (hi : i < n) (A : Mat (Fu ρ ϰ)) :
    i ≤ pivotRow n i A ∧ pivotRow n i A < n ∧
      ∀ k, i ≤ k → k < n → |(A k i).val| ≤ |(A (pivotRow n i A) i).val| := by
  obtain ⟨h1, h2, h3⟩ := pivotRow_gen (K := Fu ρ ϰ) (fun a => lt_irrefl a.val)
    (fun a b c (hab : a.val < b.val) (hac : ¬ a.val < c.val) =>
      (not_lt.2 (le_trans (not_lt.1 hac) (le_of_lt hab)) : ¬ b.val < c.val)) n i hi A
  refine ⟨h1, h2, fun k k1 k2 => ?_⟩
  have := h3 k k1 k2
  rw [Fu.lt_def, fl_fabs, fl_fabs] at this
  exact not_lt.1 this

/-- one entry of the pivot row -/
theorem fpiv_entry (a p : Fu ρ ϰ) (hp : p.val ≠ 0) :
    (∃ h, Fac ρ.u 2 h ∧ a.val = p.val * (a * (1 / p)).val * h) ∧
      |p.val| * |(a * (1 / p)).val| ≤ (1 + ρ.u)^2 * |a.val| := by
  have h0 := ρ.u_nonneg
  have h1 := ρ.u_lt_one
  constructor
  · obtain ⟨x, hx, ex⟩ := Fu.div_fac (1 : Fu ρ ϰ) p
    obtain ⟨y, hy, ey⟩ := Fu.mul_fac a (1 / p)
    refine ⟨(x * y)⁻¹, (hx.mul h0 h1 hy).inv h0 h1, ?_⟩
    have a0 := (hx.pos h0 h1).ne'
    have b0 := (hy.pos h0 h1).ne'
    rw [ey, ex, Fu.val_one]; field_simp
  · have e1 := rnd_le ρ (a.val * (1 / p).val)
    have e2 := rnd_le ρ ((1 : Fu ρ ϰ).val / p.val)
    rw [Fu.val_mul]
    have hpp : 0 < |p.val| := abs_pos.2 hp
    have e3 : |p.val| * |(1 / p).val| ≤ 1 + ρ.u := by
      rw [Fu.val_div]
      calc |p.val| * |ρ.rnd ((1 : Fu ρ ϰ).val / p.val)| ≤ |p.val| * ((1+ρ.u) * |(1 : Fu ρ ϰ).val / p.val|) :=
            mul_le_mul_of_nonneg_left e2 hpp.le
        _ = 1 + ρ.u := by rw [Fu.val_one, abs_div, abs_one]; field_simp
    calc |p.val| * |ρ.rnd (a.val * (1 / p).val)| ≤ |p.val| * ((1+ρ.u) * |a.val * (1 / p).val|) :=
          mul_le_mul_of_nonneg_left e1 hpp.le
      _ = (1+ρ.u) * |a.val| * (|p.val| * |(1 / p).val|) := by rw [abs_mul]; ring
      _ ≤ (1+ρ.u) * |a.val| * (1+ρ.u) := mul_le_mul_of_nonneg_left e3 (by positivity)
      _ = (1 + ρ.u)^2 * |a.val| := by ring

/-- one entry of the active block -/
theorem fact_entry (a l x : Fu ρ ϰ) :
    (∃ g f, Fac ρ.u 1 g ∧ Fac ρ.u 1 f ∧ a.val = (a - l * x).val * g + l.val * x.val * f) ∧
      |(a - l * x).val| ≤ (1+ρ.u) * (|a.val| + (1+ρ.u) * (|l.val| * |x.val|)) := by
  have h0 := ρ.u_nonneg
  have h1 := ρ.u_lt_one
  constructor
  · obtain ⟨f, hf, ef⟩ := Fu.mul_ex l x
    obtain ⟨g, hg, eg⟩ := Fu.sub_fac a (l * x)
    refine ⟨g⁻¹, f, hg.inv h0 h1, hf, ?_⟩
    have g0 := (hg.pos h0 h1).ne'
    rw [eg, ef]; field_simp; ring
  · have e1 := rnd_le ρ (a.val - (l * x).ex)
    have e2 : |(l * x).ex| ≤ (1 + ρ.u) * |l.val * x.val| := by
      rw [Fu.ex_mul]
      rcases ϰ.ok l.val x.val with h | h
      · rw [h]
        have := mul_nonneg h0 (abs_nonneg (l.val * x.val))
        linarith
      · rw [h]; exact rnd_le ρ (l.val * x.val)
    rw [Fu.val_sub]
    refine le_trans e1 (mul_le_mul_of_nonneg_left ?_ (by linarith))
    refine le_trans (abs_sub _ _) ?_
    rw [abs_mul] at e2
    linarith

/-- everything known after `i` steps -/
def GInv (u : ℝ) (n nc : ℕ) (A₀ b₀ : Mat (Fu ρ ϰ)) (i : ℕ) (st : Mat (Fu ρ ϰ) × Mat (Fu ρ ϰ)) : Prop :=
  ∃ (σ : ℕ → ℕ) (L : Mat ℝ), LUInv u n (n+nc) i (sval n A₀ b₀) (sval n st.1 st.2) σ L ∧
    (∀ r k, i ≤ k → L r k = 0) ∧
    ∀ M, (∀ r c, r < n → c < n → |(A₀ r c).val| ≤ M) → Growth u M n n i (sval n st.1 st.2) L

/-- what the row update `a -= l*x` must satisfy, with unit roundoff `u` -/
def UpdOk (u : ℝ) (upd : Fu ρ ϰ → Fu ρ ϰ → Fu ρ ϰ → Fu ρ ϰ) : Prop :=
  ∀ a l x, (∃ g f, Fac u 1 g ∧ Fac u 1 f ∧ a.val = (upd a l x).val * g + l.val * x.val * f) ∧
    |(upd a l x).val| ≤ (1+u) * (|a.val| + (1+u) * (|l.val| * |x.val|))

theorem updOk_std : UpdOk (ϰ := ϰ) ρ.u (fun a l x => a - l * x) := fun a l x => fact_entry a l x

section upd
variable {u : ℝ} (h1' : u < 1) (hru : ρ.u ≤ u) {upd : Fu ρ ϰ → Fu ρ ϰ → Fu ρ ϰ → Fu ρ ϰ} (hupd : UpdOk u upd)
include h1' hru hupd

theorem fge_step (n nc i : ℕ) (hi : i < n) (A b : Mat (Fu ρ ϰ)) (hp : A (pivotRow n i A) i ≠ 0) :
    ∃ A' b', geStepU upd n nc i (A, b) = some (A', b') ∧
      RStep u n (n+nc) i (pivotRow n i A) (sval n A b) (sval n A' b') := by
  obtain ⟨A', b', e, hA, hb, hold⟩ := geStepU_gen upd n nc i hi A b _ rfl hp
  obtain ⟨p1, p2, p3⟩ := fpivot n i hi A
  generalize pivotRow n i A = p at *
  have hpv : (A p i).val ≠ 0 := fun h => hp ((Fu.eq_zero_iff _).2 h)
  have sA : ∀ (A b : Mat (Fu ρ ϰ)) r c, c < n → sval n A b r c = (A r c).val := fun A b r c h => by
    unfold sval; rw [if_pos h]
  have sB : ∀ (A b : Mat (Fu ρ ϰ)) r c, ¬ c < n → sval n A b r c = (b r (c-n)).val := fun A b r c h => by
    unfold sval; rw [if_neg h]
  -- all entries to the right of the pivot column, uniformly
  have hpivrow : ∀ c, i < c → c < n+nc → ∃ a : Fu ρ ϰ, sval n A b p c = a.val ∧
      sval n A' b' i c = (a * (1 / A p i)).val := by
    intro c h1 h2
    by_cases hc : c < n
    · exact ⟨A p c, sA _ _ _ _ hc, by rw [sA _ _ _ _ hc, hA i c h1 hc, if_pos rfl]⟩
    · exact ⟨b p (c-n), sB _ _ _ _ hc, by rw [sB _ _ _ _ hc, hb i (c-n) (by omega), if_pos rfl]⟩
  have hact : ∀ r c, i < r → r < n → i < c → c < n+nc → ∃ a x : Fu ρ ϰ, sval n A b (sw i p r) c = a.val ∧
      sval n A' b' i c = x.val ∧ sval n A' b' r c = (upd a (A (sw i p r) i) x).val := by
    intro r c hr hrn h1 h2
    by_cases hc : c < n
    · refine ⟨A (sw i p r) c, A p c * (1 / A p i), sA _ _ _ _ hc, ?_, ?_⟩
      · rw [sA _ _ _ _ hc, hA i c h1 hc, if_pos rfl]
      · rw [sA _ _ _ _ hc, hA r c h1 hc, if_neg (by omega), if_pos ⟨hr, hrn⟩]
    · refine ⟨b (sw i p r) (c-n), b p (c-n) * (1 / A p i), sB _ _ _ _ hc, ?_, ?_⟩
      · rw [sB _ _ _ _ hc, hb i (c-n) (by omega), if_pos rfl]
      · rw [sB _ _ _ _ hc, hb r (c-n) (by omega), if_neg (by omega), if_pos ⟨hr, hrn⟩]
  refine ⟨A', b', e, p1, p2, by rw [sA _ _ _ _ hi]; exact hpv, ?_, ?_, ?_, ?_, ?_, ?_⟩
  · intro r h1 h2; rw [sA _ _ _ _ hi, sA _ _ _ _ hi]; exact p3 r h1 h2
  · intro r c h1 h2 h3
    by_cases hc : c < n
    · rw [sA _ _ _ _ hc, sA _ _ _ _ hc, hold r c h1 (by omega)]
    · rw [sB _ _ _ _ hc, sB _ _ _ _ hc, hb r (c-n) (by omega), if_neg (by omega), if_neg (by omega),
        sw_lt h1 p1]
  · intro c h1 h2
    obtain ⟨a, e1, e2⟩ := hpivrow c h1 h2
    rw [e1, e2, sA _ _ _ _ hi]; 
    obtain ⟨h, hh, e4⟩ := (fpiv_entry a (A p i) hpv).1
    exact ⟨h, hh.weaken h1' hru (hh.pos ρ.u_nonneg ρ.u_lt_one).le, e4⟩
  · intro r c h1 h2 h3 h4
    obtain ⟨a, x, e1, e2, e3⟩ := hact r c h1 h2 h3 h4
    rw [e1, e2, e3, sA _ _ _ _ hi]; exact (hupd a _ x).1
  · intro c h1 h2
    obtain ⟨a, e1, e2⟩ := hpivrow c h1 h2
    rw [e1, e2, sA _ _ _ _ hi]; 
    refine le_trans (fpiv_entry a (A p i) hpv).2 (mul_le_mul_of_nonneg_right ?_ (abs_nonneg _))
    exact pow_le_pow_left₀ (by linarith [ρ.u_nonneg]) (by linarith) 2
  · intro r c h1 h2 h3 h4
    obtain ⟨a, x, e1, e2, e3⟩ := hact r c h1 h2 h3 h4
    rw [e1, e2, e3, sA _ _ _ _ hi]; exact (hupd a _ x).2

omit hupd in
theorem GInv.init (n nc : ℕ) (A₀ b₀ : Mat (Fu ρ ϰ)) : GInv u n nc A₀ b₀ 0 (A₀, b₀) := by
  refine ⟨id, fun _ _ => 0, LUInv.init _ (le_trans ρ.u_nonneg hru) h1' _ _ _, fun _ _ _ => rfl, fun M hM => ⟨?_, ?_⟩⟩
  · intro r c _ hr _ hc
    rw [pow_zero, one_mul]
    unfold sval
    rw [if_pos hc]; exact hM r c hr hc
  · intro k _ _ hk; omega

theorem GInv.step {n nc : ℕ} {A₀ b₀ : Mat (Fu ρ ϰ)} {i : ℕ} (hi : i < n) {st : Mat (Fu ρ ϰ) × Mat (Fu ρ ϰ)}
    (h : GInv u n nc A₀ b₀ i st) (hp : st.1 (pivotRow n i st.1) i ≠ 0) :
    ∃ st', geStepU upd n nc i st = some st' ∧ GInv u n nc A₀ b₀ (i+1) st' := by
  obtain ⟨A, b⟩ := st
  obtain ⟨σ, L, h1, h2, h3⟩ := h
  obtain ⟨A', b', e, hs⟩ := fge_step h1' hru hupd n nc i hi A b hp
  refine ⟨(A', b'), e, _, nextL i _ (sval n A b) L,
    h1.step (le_trans ρ.u_nonneg hru) h1' (by omega) hs h2, ?_, ?_⟩
  · intro r k hk
    unfold nextL; rw [if_neg (by omega)]; exact h2 _ _ (by omega)
  · intro M hM
    have hM0 : 0 ≤ M := le_trans (abs_nonneg _) (hM i i hi hi)
    exact (h3 M hM).step (le_trans ρ.u_nonneg hru) hM0 (by omega) hs


/-- the outer loop either completes or stops at a step whose pivot column is zero -/
theorem ge_loop (n nc : ℕ) (A b : Mat (Fu ρ ϰ)) :
    ∀ i, i ≤ n → (∃ st, forNM i (geStepU upd n nc) (A, b) = some st ∧ GInv u n nc A b i st) ∨
      (forNM i (geStepU upd n nc) (A, b) = none ∧ ∃ j st, j < i ∧ GInv u n nc A b j st ∧
        ∀ r, j ≤ r → r < n → (st.1 r j).val = 0) := by
  intro i
  induction i with
  | zero => intro _; exact Or.inl ⟨(A, b), rfl, GInv.init h1' hru n nc A b⟩
  | succ i ih =>
    intro hi
    rcases ih (by omega) with ⟨st, e, h⟩ | ⟨e, j, st, hj, h, hz⟩
    · by_cases hp : st.1 (pivotRow n i st.1) i = 0
      · right
        refine ⟨by rw [forNM_succ, e]; exact geStepU_none upd n nc i st.1 st.2 hp, i, st, by omega, h, ?_⟩
        intro r h1 h2
        obtain ⟨-, -, p3⟩ := fpivot n i (by omega) st.1
        have := p3 r h1 h2
        rw [hp, Fu.val_zero, abs_zero] at this
        exact abs_nonpos_iff.1 this
      · left
        obtain ⟨st', e', h'⟩ := h.step h1' hru hupd (by omega) hp
        exact ⟨st', by rw [forNM_succ, e]; exact e', h'⟩
    · right
      exact ⟨by rw [forNM_succ, e]; rfl, j, st, by omega, h, hz⟩

end upd

/-- back substitution in floating point -/
theorem fge_back (n nc : ℕ) (A b x : Mat (Fu ρ ϰ)) (k : ℕ) (hk : k < nc) :
    ∃ F : ℕ → ℕ → ℝ, (∀ r j, r < n → j < n → Fac ρ.u (n-1) (F r j)) ∧ ∀ r, r < n →
      (b r k).val = ∑ j ∈ range n, uf (sval n A b) r j * (geBack n nc A b x j k).val * F r j := by
  have h0 := ρ.u_nonneg
  have h1 := ρ.u_lt_one
  have : ∀ r, ∃ F : ℕ → ℝ, r < n → (∀ j, j < n → Fac ρ.u (n-1) (F j)) ∧
      (b r k).val = ∑ j ∈ range n, uf (sval n A b) r j * (geBack n nc A b x j k).val * F j := by
    intro r
    by_cases hr : r < n
    · obtain ⟨g, f, hg, hf, e⟩ := forRange_sub_fac (r+1) n (A r) (fun j => geBack n nc A b x j k) (b r k)
      rw [← geBack_gen n nc A b x r k hr hk] at e
      refine ⟨fun j => if r < j then f j else if j = r then g else 1, fun _ => ⟨?_, ?_⟩⟩
      · intro j hj
        dsimp only
        split_ifs with c1 c2
        · exact (hf j (by omega) hj).mono h0 h1 (by omega)
        · exact hg.mono h0 h1 (by omega)
        · exact Fac.one h0 h1 _
      · have hz : ∑ j ∈ Ico 0 r, uf (sval n A b) r j * (geBack n nc A b x j k).val *
            (if r < j then f j else if j = r then g else 1) = 0 := by
          refine sum_eq_zero fun j hj => ?_
          have := mem_Ico.1 hj
          unfold uf; rw [if_neg (by omega), if_neg (by omega)]; ring
        beta_reduce
        rw [e, Finset.range_eq_Ico, ← sum_Ico_consecutive _ (Nat.zero_le r) hr.le, hz, zero_add,
          sum_eq_sum_Ico_succ_bot hr]
        congr 1
        · unfold uf; rw [if_neg (by omega), if_pos rfl, if_neg (by omega), if_pos rfl]; ring
        · refine sum_congr rfl fun j hj => ?_
          have := mem_Ico.1 hj
          unfold uf sval
          rw [if_pos (by omega), if_pos (by omega), if_pos (by omega)]
    · exact ⟨fun _ => 1, fun h => absurd h hr⟩
  choose F hF using this
  exact ⟨F, fun r j hr hj => (hF r hr).1 j hj, fun r hr => (hF r hr).2⟩

end TooN.Fused
