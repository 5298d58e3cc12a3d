import Verif.Props.FloatElim
import Mathlib.LinearAlgebra.Matrix.Block
import Mathlib.LinearAlgebra.Matrix.ToLinearEquiv
/-! Rounding error analysis of `determinant_gaussian_elimination`. -/
set_option linter.unusedSectionVars false
namespace TooN.Elim
open Finset
variable {ρ : Rounding}

section gen
variable {K : Type _} [Zero K] [One K] [Sub K] [Mul K] [Div K] [Neg K] [LT K] [DecidableLT K] [DecidableEq K]

/-- effect of the elimination loop of the determinant -/
theorem detInnerG (n i : Nat) (q : K) (A : Mat K) (r c : Nat) :
    forRange (i+1) n (fun u A =>
      let factor := A u i / q
      forRange (i+1) n (fun j A => Mat.set A u j (A u j - factor * A i j)) A) A r c =
    if i < r ∧ r < n ∧ i < c ∧ c < n then A r c - A r i / q * A i c else A r c := by
  by_cases hle : i + 1 ≤ n
  · have := forRange_inv (fun u (B : Mat K) =>
      ∀ r c, B r c = if i < r ∧ r < u ∧ i < c ∧ c < n then A r c - A r i / q * A i c else A r c)
      (i+1) n hle (fun u A =>
      let factor := A u i / q
      forRange (i+1) n (fun j A => Mat.set A u j (A u j - factor * A i j)) A) A
      (fun r c => by rw [if_neg (by omega)])
      (by
        intro u B hu hun h1 r c
        have hf : B u i = A u i := by rw [h1, if_neg (by omega)]
        have := subRow_apply (i+1) n u i (by omega) (B u i / q) B r c
        unfold subRow at this
        simp only
        rw [this, hf]
        by_cases e : r = u ∧ i + 1 ≤ c ∧ c < n
        · obtain ⟨rfl, e2, e3⟩ := e
          rw [if_pos ⟨rfl, e2, e3⟩, if_pos (by omega), h1, if_neg (by omega), h1, if_neg (by omega)]
        · rw [if_neg e, h1]
          by_cases e2 : i < r ∧ r < u ∧ i < c ∧ c < n
          · rw [if_pos e2, if_pos (by omega)]
          · rw [if_neg e2, if_neg (by omega)])
    exact this r c
  · rw [forRange_empty _ _ (by omega), if_neg (by omega)]

end gen

/-- the loop invariant: `A₀` with permuted rows is `L V` plus what is still to be processed -/
structure DInv (u : ℝ) (n i : ℕ) (A₀ S : Mat ℝ) (σ : Equiv.Perm (Fin n)) (L V : Mat ℝ) : Prop where
  tri : ∀ r k, r < k → L r k = 0
  one : ∀ k, k < i → L k k = 1
  le : ∀ r k, |L r k| ≤ 1
  upp : ∀ k c, c < k → V k c = 0
  nz : ∀ k, k < i → V k k ≠ 0
  fact : ∀ (r : Fin n) c, c < n → ∃ (g : ℝ) (G : ℕ → ℝ), Fac u i g ∧ (∀ k, k < i → Fac u (i+1) (G k)) ∧
    A₀ (σ r) c = ∑ k ∈ range i, L r k * V k c * G k + (if i ≤ r.val ∧ i ≤ c then S r c * g else 0)

/-- exchange of two rows, as a permutation -/
noncomputable def swp {n i p : ℕ} (hi : i < n) (hp : p < n) : Equiv.Perm (Fin n) := Equiv.swap ⟨i, hi⟩ ⟨p, hp⟩

theorem swp_val {n i p : ℕ} (hi : i < n) (hp : p < n) (r : Fin n) : (swp hi hp r : ℕ) = sw i p r := by
  unfold swp sw
  rw [Equiv.swap_apply_def]
  by_cases h1 : r = ⟨i, hi⟩
  · subst h1
    simp only [if_true]
    by_cases h2 : i = p
    · subst h2; simp
    · rw [if_neg h2]
  · rw [if_neg h1]
    have h1' : ¬ r.val = i := fun h => h1 (Fin.ext h)
    by_cases h2 : r = ⟨p, hp⟩
    · rw [if_pos h2, if_pos (by rw [h2])]
    · rw [if_neg h2, if_neg (fun h => h2 (Fin.ext h)), if_neg h1']

/-- multipliers and rows after the step; `l r` is the multiplier of (exchanged) row `r` -/
noncomputable def dL (i p : ℕ) (l : ℕ → ℝ) (L : Mat ℝ) : Mat ℝ := fun r k =>
  if k = i then (if r = i then 1 else if i < r then l r else 0) else L (sw i p r) k
noncomputable def dV (i p : ℕ) (S V : Mat ℝ) : Mat ℝ := fun k c =>
  if k = i then (if i ≤ c then S p c else 0) else V k c

theorem DInv.step {u : ℝ} (h0 : 0 ≤ u) (h1 : u < 1) {n i p : ℕ} (hi : i < n) (hp : p < n) (hip : i ≤ p)
    {A₀ S S' : Mat ℝ} {σ : Equiv.Perm (Fin n)} {L V : Mat ℝ} (h : DInv u n i A₀ S σ L V)
    (hL : ∀ r k, i ≤ k → L r k = 0) (nz : S p i ≠ 0) (l : ℕ → ℝ) (hl : ∀ r, |l r| ≤ 1)
    (col : ∀ r, i < r → r < n → ∃ f, Fac u 1 f ∧ S (sw i p r) i = l r * S p i * f)
    (act : ∀ r c, i < r → r < n → i < c → c < n → ∃ g f, Fac u 1 g ∧ Fac u 1 f ∧
      S (sw i p r) c = S' r c * g + l r * S p c * f) :
    DInv u n (i+1) A₀ S' (σ * swp hi hp) (dL i p l L) (dV i p S V) := by
  have eL : ∀ r k, k ≠ i → dL i p l L r k = L (sw i p r) k := fun r k hk => by unfold dL; rw [if_neg hk]
  refine ⟨?_, ?_, ?_, ?_, ?_, ?_⟩
  · intro r k hrk
    by_cases e : k = i
    · unfold dL; rw [if_pos e, if_neg (by omega), if_neg (by omega)]
    · rw [eL r k e]
      by_cases e2 : i ≤ k
      · exact hL _ _ e2
      · rw [sw_lt (by omega) hip]; exact h.tri r k hrk
  · intro k hk
    by_cases e : k = i
    · unfold dL; rw [if_pos e, if_pos e]
    · rw [eL k k e, sw_lt (by omega) hip]; exact h.one k (by omega)
  · intro r k
    unfold dL
    split_ifs
    · rw [abs_one]
    · exact hl r
    · rw [abs_zero]; exact zero_le_one
    · exact h.le _ _
  · intro k c hck
    unfold dV
    by_cases e : k = i
    · rw [if_pos e, if_neg (by omega)]
    · rw [if_neg e]; exact h.upp k c hck
  · intro k hk
    unfold dV
    by_cases e : k = i
    · rw [if_pos e, if_pos (by omega), e]; exact nz
    · rw [if_neg e]; exact h.nz k (by omega)
  · intro r c hc
    obtain ⟨g, G, hg, hG, e⟩ := h.fact (swp hi hp r) c hc
    rw [swp_val] at e
    have hsum : ∀ G' : ℕ → ℝ, (∀ k, k < i → G' k = G k) →
        ∑ k ∈ range i, dL i p l L r k * dV i p S V k c * G' k =
        ∑ k ∈ range i, L (sw i p r) k * V k c * G k := by
      intro G' hG'
      refine sum_congr rfl fun k hk => ?_
      have hk := mem_range.1 hk
      rw [eL r k (by omega), hG' k hk]
      unfold dV; rw [if_neg (by omega)]
    have fin : ∀ G' g' : ℝ, Fac u (i+2) G' → Fac u (i+1) g' →
        (if i ≤ sw i p r ∧ i ≤ c then S (sw i p r) c * g else 0) =
          dL i p l L r i * dV i p S V i c * G' + (if i+1 ≤ r.val ∧ i+1 ≤ c then S' r c * g' else 0) →
        ∃ (g : ℝ) (G : ℕ → ℝ), Fac u (i+1) g ∧ (∀ k, k < i+1 → Fac u (i+1+1) (G k)) ∧
          A₀ ((σ * swp hi hp) r) c = ∑ k ∈ range (i+1), dL i p l L r k * dV i p S V k c * G k +
            (if i+1 ≤ r.val ∧ i+1 ≤ c then S' r c * g else 0) := by
      intro G' g' hG' hg' e'
      refine ⟨g', fun k => if k < i then G k else G', hg', fun k hk => ?_, ?_⟩
      · dsimp only
        split_ifs with hlt
        · exact (hG k hlt).mono h0 h1 (by omega)
        · exact hG'
      · rw [Equiv.Perm.mul_apply, sum_range_succ, hsum _ (fun k hk => if_pos hk), e, e']
        beta_reduce; rw [if_neg (lt_irrefl i)]; ring
    by_cases hri : r.val < i
    · refine fin 1 1 (Fac.one h0 h1 _) (Fac.one h0 h1 _) ?_
      rw [if_neg (by rw [sw_lt hri hip]; omega), if_neg (by omega)]
      unfold dL; rw [if_pos rfl, if_neg (by omega), if_neg (by omega)]; ring
    · have hir : i ≤ r.val := by omega
      by_cases hci : c < i
      · refine fin 1 1 (Fac.one h0 h1 _) (Fac.one h0 h1 _) ?_
        rw [if_neg (by omega), if_neg (by omega)]
        unfold dV; rw [if_pos rfl, if_neg (by omega)]; ring
      · have hw : i ≤ sw i p r ∧ i ≤ c := ⟨sw_ge hip hir, by omega⟩
        have hV : dV i p S V i c = S p c := by unfold dV; rw [if_pos rfl, if_pos hw.2]
        by_cases hr2 : r.val = i
        · refine fin g 1 (hg.mono h0 h1 (by omega)) (Fac.one h0 h1 _) ?_
          rw [if_pos hw, if_neg (by omega), hV]
          unfold dL; rw [if_pos rfl, if_pos hr2, hr2, sw_self]; ring
        · have hlr : dL i p l L r i = l r := by unfold dL; rw [if_pos rfl, if_neg hr2, if_pos (by omega)]
          by_cases hc2 : c = i
          · subst hc2
            obtain ⟨f, hf, ef⟩ := col r (by omega) r.2
            refine fin (g * f) 1 ((hg.mul h0 h1 hf).mono h0 h1 (by omega)) (Fac.one h0 h1 _) ?_
            rw [if_pos hw, if_neg (by omega), hV, hlr, ef]; ring
          · obtain ⟨a, b, ha, hb', eab⟩ := act r c (by omega) r.2 (by omega) hc
            refine fin (g * b) (g * a) ((hg.mul h0 h1 hb').mono h0 h1 (by omega)) (hg.mul h0 h1 ha) ?_
            rw [if_pos hw, if_pos (by omega), hV, hlr, eab]; ring

/-- growth -/
structure DGrowth (u M : ℝ) (n i : ℕ) (S V : Mat ℝ) : Prop where
  act : ∀ r c, i ≤ r → r < n → i ≤ c → c < n → |S r c| ≤ (2*(1+u)^2)^i * M
  row : ∀ k c, k < i → c < n → |V k c| ≤ (2*(1+u)^2)^k * M

theorem DGrowth.step {u M : ℝ} (h0 : 0 ≤ u) (hM : 0 ≤ M) {n i p : ℕ} (hi : i < n) (hp : p < n) (hip : i ≤ p)
    {S S' : Mat ℝ} {V : Mat ℝ} (h : DGrowth u M n i S V) (l : ℕ → ℝ) (hl : ∀ r, |l r| ≤ 1)
    (actb : ∀ r c, i < r → r < n → i < c → c < n →
      |S' r c| ≤ (1+u) * (|S (sw i p r) c| + (1+u) * (|l r| * |S p c|))) :
    DGrowth u M n (i+1) S' (dV i p S V) := by
  set B := (2*(1+u)^2)^i * M with hB
  have hB0 : 0 ≤ B := by positivity
  refine ⟨?_, ?_⟩
  · intro r c hir hr hic hc
    have e1 := h.act (sw i p r) c (sw_ge hip (by omega)) (sw_bound hi hp hr) (by omega) hc
    have e2 := h.act p c hip hp (by omega) hc
    rw [← hB] at e1 e2
    have e3 : |l r| * |S p c| ≤ B := by
      calc |l r| * |S p c| ≤ 1 * B := mul_le_mul (hl r) e2 (abs_nonneg _) zero_le_one
        _ = B := one_mul _
    calc |S' r c| ≤ (1+u) * (|S (sw i p r) c| + (1+u) * (|l r| * |S p c|)) := actb r c (by omega) hr (by omega) hc
      _ ≤ (1+u) * (B + (1+u) * B) := by gcongr
      _ ≤ (2*(1+u)^2) * B := by nlinarith [mul_nonneg h0 hB0]
      _ = (2*(1+u)^2)^(i+1) * M := by rw [hB]; ring
  · intro k c hk hc
    unfold dV
    by_cases e : k = i
    · rw [if_pos e, e, ← hB]
      split_ifs with h2
      · exact h.act p c hip hp h2 hc
      · rw [abs_zero]; exact hB0
    · rw [if_neg e]; exact h.row k c (by omega) hc

/-- state invariant -/
def FDet (n : ℕ) (A₀ : Mat (Fl ρ)) (i : ℕ) : DetState (Fl ρ) → Prop
  | .run A d => ∃ (σ : Equiv.Perm (Fin n)) (L V : Mat ℝ), DInv ρ.u n i (rmat A₀) (rmat A) σ L V ∧
      (∀ r k, i ≤ k → L r k = 0) ∧
      (∀ M, (∀ r c, r < n → c < n → |(A₀ r c).val| ≤ M) → DGrowth ρ.u M n i (rmat A) V) ∧
      ∃ f, Fac ρ.u i f ∧ d.val = ((Equiv.Perm.sign σ : ℤ) : ℝ) * (∏ k ∈ range i, V k k) * f
  | .ret d => d = 0 ∧ ∃ j, j < n ∧ ∃ (A : Mat (Fl ρ)) (σ : Equiv.Perm (Fin n)) (L V : Mat ℝ),
      DInv ρ.u n j (rmat A₀) (rmat A) σ L V ∧
      (∀ M, (∀ r c, r < n → c < n → |(A₀ r c).val| ≤ M) → DGrowth ρ.u M n j (rmat A) V) ∧
      ∀ r, j ≤ r → r < n → (A r j).val = 0
  | .divZero => False

theorem fdet_step (n i : ℕ) (hi : i < n) (A₀ : Mat (Fl ρ)) (s : DetState (Fl ρ)) (h : FDet n A₀ i s) :
    FDet n A₀ (i+1) (detStep n i s) := by
  have h0 := ρ.u_nonneg
  have h1 := ρ.u_lt_one
  match s with
  | .ret r => exact h
  | .divZero => exact h
  | .run A d =>
    obtain ⟨σ, L, V, hI, hL, hG, f, hf, ed⟩ := h
    obtain ⟨p1, p2, p3⟩ := fpivot n i hi A
    unfold detStep
    simp only
    generalize pivotRow n i A = p at *
    let A1 : Mat (Fl ρ) := if p ≠ i then swapRows i n i p A else A
    have hA1 : ∀ r c, i ≤ c → c < n → A1 r c = A (sw i p r) c := by
      intro r c h1 h2
      simp only [A1, sw]
      by_cases h : p ≠ i
      · rw [if_pos h, swapRows_apply, if_pos ⟨h1, h2⟩]
        split_ifs <;> rfl
      · rw [if_neg h]
        have h : p = i := not_not.1 h
        rw [h]
        split_ifs with h1 <;> first | rfl | rw [h1]
    let d1 : Fl ρ := if p ≠ i then d * (-1) else d
    have hd1 : d1.val = (if p ≠ i then -1 else 1) * d.val := by
      simp only [d1]
      split_ifs
      · rw [Fl.val_mul, Fl.val_neg, Fl.val_one, mul_neg, mul_one, ρ.neg, d.repr]; ring
      · rw [one_mul]
    have h11 : A1 i i = A p i := by rw [hA1 i i le_rfl hi, sw_self]
    change FDet n A₀ (i+1) (if d1 * A1 i i = 0 then .ret 0 else if i + 1 < n ∧ A p i = 0 then .divZero
      else .run (forRange (i+1) n (fun u B =>
        let factor := B u i / A p i
        forRange (i+1) n (fun j B => Mat.set B u j (B u j - factor * B i j)) B) A1) (d1 * A1 i i))
    rw [h11]
    obtain ⟨e, he, ee⟩ := Fl.mul_fac d1 (A p i)
    have he0 := (he.pos h0 h1).ne'
    have hd0 : d.val ≠ 0 := by
      rw [ed]
      refine mul_ne_zero (mul_ne_zero ?_ (prod_ne_zero_iff.2 fun k hk => hI.nz k (mem_range.1 hk))) (hf.pos h0 h1).ne'
      rcases Int.units_eq_one_or (Equiv.Perm.sign σ) with h | h <;> rw [h] <;> norm_num
    have hd10 : d1.val ≠ 0 := by
      rw [hd1]; split_ifs <;> simpa using hd0
    by_cases hz : A p i = 0
    · have : d1 * A p i = 0 := by rw [Fl.eq_zero_iff, ee, hz, Fl.val_zero]; ring
      rw [if_pos this]
      refine ⟨rfl, i, hi, A, σ, L, V, hI, hG, fun r a b => ?_⟩
      have := p3 r a b
      rw [hz, Fl.val_zero, abs_zero] at this
      exact abs_nonpos_iff.1 this
    · have hpv : (A p i).val ≠ 0 := fun h => hz ((Fl.eq_zero_iff _).2 h)
      rw [if_neg (by rw [Fl.eq_zero_iff, ee]; exact mul_ne_zero (mul_ne_zero hd10 hpv) he0),
        if_neg (fun h => hz h.2)]
      -- multipliers
      let l : ℕ → ℝ := fun r => if i < r ∧ r < n then (A (sw i p r) i / A p i).val else 0
      have hl : ∀ r, |l r| ≤ 1 := by
        intro r
        simp only [l]
        split_ifs with hr
        · have q := p3 (sw i p r) (sw_ge p1 (by omega)) (sw_bound hi p2 hr.2)
          rw [Fl.val_div, abs_le]
          have q2 : |(A (sw i p r) i).val / (A p i).val| ≤ 1 := by
            rw [abs_div, div_le_one (abs_pos.2 hpv)]; exact q
          obtain ⟨q3, q4⟩ := abs_le.1 q2
          constructor
          · have := ρ.mono _ _ q3; rwa [ρ.neg, ρ.one] at this
          · have := ρ.mono _ _ q4; rwa [ρ.one] at this
        · rw [abs_zero]; exact zero_le_one
      have hlr : ∀ r, i < r → r < n → l r = (A (sw i p r) i / A p i).val := fun r a b => if_pos ⟨a, b⟩
      have hS' : ∀ r c, i < r → r < n → i < c → c < n → forRange (i+1) n (fun u B =>
          let factor := B u i / A p i
          forRange (i+1) n (fun j B => Mat.set B u j (B u j - factor * B i j)) B) A1 r c =
          A (sw i p r) c - A (sw i p r) i / A p i * A p c := by
        intro r c a b c1 c2
        rw [detInnerG, if_pos ⟨a, b, c1, c2⟩, hA1 r c (by omega) c2, hA1 r i le_rfl hi, hA1 i c (by omega) c2, sw_self]
      refine ⟨σ * swp hi p2, dL i p l L, dV i p (rmat A) V, ?_, ?_, ?_, ?_⟩
      · refine hI.step h0 h1 hi p2 p1 hL hpv l hl ?_ ?_
        · intro r a b
          obtain ⟨g, hg, eg⟩ := Fl.div_fac (A (sw i p r) i) (A p i)
          refine ⟨g⁻¹, hg.inv h0 h1, ?_⟩
          have g0 := (hg.pos h0 h1).ne'
          rw [hlr r a b, eg]
          simp only [rmat]
          field_simp
        · intro r c a b c1 c2
          obtain ⟨g, f, hg, hf, e⟩ := (fact_entry (A (sw i p r) c) (A (sw i p r) i / A p i) (A p c)).1
          refine ⟨g, f, hg, hf, ?_⟩
          simp only [rmat]
          rw [hS' r c a b c1 c2, hlr r a b]; exact e
      · intro r k hk
        unfold dL; rw [if_neg (by omega)]; exact hL _ _ (by omega)
      · intro M hM
        have hM0 : 0 ≤ M := le_trans (abs_nonneg _) (hM i i hi hi)
        refine (hG M hM).step h0 hM0 hi p2 p1 l hl ?_
        intro r c a b c1 c2
        simp only [rmat]
        rw [hS' r c a b c1 c2, hlr r a b]
        exact (fact_entry (A (sw i p r) c) (A (sw i p r) i / A p i) (A p c)).2
      · refine ⟨f * e, hf.mul h0 h1 he, ?_⟩
        have es : ((Equiv.Perm.sign (σ * swp hi p2) : ℤ) : ℝ) =
            (if p ≠ i then -1 else 1) * ((Equiv.Perm.sign σ : ℤ) : ℝ) := by
          rw [Equiv.Perm.sign_mul, swp, Equiv.Perm.sign_swap']
          by_cases hpi : p = i
          · subst hpi; simp
          · rw [if_neg (by intro h; exact hpi (Fin.mk.inj_iff.1 h).symm), if_pos hpi]; simp
        rw [ee, hd1, ed, es, prod_range_succ]
        have ep : ∏ k ∈ range i, dV i p (rmat A) V k k = ∏ k ∈ range i, V k k :=
          prod_congr rfl fun k hk => by
            have := mem_range.1 hk
            unfold dV; rw [if_neg (by omega)]
        have ei : dV i p (rmat A) V i i = (A p i).val := by unfold dV; rw [if_pos rfl, if_pos le_rfl]; rfl
        rw [ep, ei]; ring

theorem fdet_inv (n : ℕ) (A : Mat (Fl ρ)) : FDet n A n (forN n (detStep n) (.run A 1)) := by
  refine forN_inv (FDet n A) n (detStep n) (.run A 1) ?_ (fun i t hi ht => fdet_step n i hi A t ht)
  refine ⟨1, fun _ _ => 0, fun _ _ => 0, ⟨fun _ _ _ => rfl, fun k h => by omega, fun _ _ => by simp, fun _ _ _ => rfl,
    fun k h => by omega, fun r c hc => ⟨1, fun _ => 1, Fac.one ρ.u_nonneg ρ.u_lt_one 0, fun k hk => by omega, by simp⟩⟩,
    fun _ _ _ => rfl, fun M hM => ⟨?_, fun k _ hk => by omega⟩, 1, Fac.one ρ.u_nonneg ρ.u_lt_one 0, by simp⟩
  intro r c _ hr _ hc
  rw [pow_zero, one_mul]; exact hM r c hr hc

theorem dgeom_bound {u M : ℝ} (h0 : 0 ≤ u) (hM : 0 ≤ M) (n i : ℕ) (hi : i ≤ n) :
    ∑ k ∈ range i, (2*(1+u)^2)^k * M ≤ 2^n * (1+u)^(2*n) * M := by
  have u1 : 1 ≤ 1 + u := by linarith
  have hw : 1 ≤ (1+u)^2 := one_le_pow₀ u1
  have step : ∀ i, ∑ k ∈ range i, (2*(1+u)^2)^k ≤ 2^i * ((1+u)^2)^i := by
    intro i
    induction i with
    | zero => simp
    | succ i ih =>
      rw [sum_range_succ, mul_pow]
      have e1 : ((1+u)^2)^i ≤ ((1+u)^2)^(i+1) := pow_le_pow_right₀ hw (by omega)
      have e2 : (2:ℝ)^i * ((1+u)^2)^i ≤ 2^i * ((1+u)^2)^(i+1) := mul_le_mul_of_nonneg_left e1 (by positivity)
      rw [pow_succ 2 i]
      linarith
  rw [← sum_mul]
  refine mul_le_mul_of_nonneg_right (le_trans (step i) ?_) hM
  rw [pow_mul]
  exact mul_le_mul (pow_le_pow_right₀ (by norm_num) hi) (pow_le_pow_right₀ hw hi) (by positivity) (by positivity)

/-- distance between the input and the matrix that was really factorised -/
theorem dist_bound (n i : ℕ) (hu : ((n + 1 : ℕ) : ℝ) * ρ.u < 1) (hin : i ≤ n) (A₀ S : Mat ℝ)
    (σ : Equiv.Perm (Fin n)) (L V : Mat ℝ) (hI : DInv ρ.u n i A₀ S σ L V) (M : ℝ) (hM0 : 0 ≤ M)
    (hg : DGrowth ρ.u M n i S V) (r : Fin n) (c : ℕ) (hc : c < n) :
    |(∑ k ∈ range i, L r k * V k c + (if i ≤ r.val ∧ i ≤ c then S r c else 0)) - A₀ (σ r) c| ≤
      gam ρ.u (n+1) * (2^n * (1+ρ.u)^(2*n) * M) := by
  have h0 := ρ.u_nonneg
  have h1 := ρ.u_lt_one
  obtain ⟨g, G, hg1, hG1, e⟩ := hI.fact r c hc
  have hi1 : ((i+1 : ℕ) : ℝ) * ρ.u < 1 :=
    lt_of_le_of_lt (mul_le_mul_of_nonneg_right (by exact_mod_cast (by omega : i + 1 ≤ n+1)) h0) hu
  have hgn := gam_nonneg h0 h1 hi1
  have e1 := fac_sum_err h0 h1 hi1 (range i) (fun k => L r k * V k c) G (fun k hk => hG1 k (mem_range.1 hk))
  have e3 : ∑ k ∈ range i, |L r k * V k c| ≤ ∑ k ∈ range i, (2*(1+ρ.u)^2)^k * M :=
    sum_le_sum fun k hk => by
      rw [abs_mul]
      calc |L r k| * |V k c| ≤ 1 * ((2*(1+ρ.u)^2)^k * M) :=
            mul_le_mul (hI.le _ _) (hg.row k c (mem_range.1 hk) hc) (abs_nonneg _) zero_le_one
        _ = _ := one_mul _
  have g2 := gam_mono h0 h1 (Nat.succ_le_succ hin) hu
  by_cases hc2 : i ≤ r.val ∧ i ≤ c
  · have hlt : i + 1 ≤ n := by have := r.2; omega
    have e4 := dgeom_bound h0 hM0 n (i+1) hlt
    rw [sum_range_succ] at e4
    have b1 := (hg1.mono h0 h1 (Nat.le_succ i)).gam h0 h1 hi1
    have e2 : |S r c * g - S r c| ≤ gam ρ.u (i+1) * ((2*(1+ρ.u)^2)^i * M) := by
      rw [show S r c * g - S r c = (g - 1) * S r c by ring, abs_mul]
      exact mul_le_mul b1 (hg.act r c hc2.1 r.2 hc2.2 hc) (abs_nonneg _) hgn
    rw [e, if_pos hc2, if_pos hc2, abs_sub_comm]
    calc |∑ k ∈ range i, L r k * V k c * G k + S r c * g - (∑ k ∈ range i, L r k * V k c + S r c)|
        = |(∑ k ∈ range i, L r k * V k c * G k - ∑ k ∈ range i, L r k * V k c) + (S r c * g - S r c)| := by
          congr 1; ring
      _ ≤ gam ρ.u (i+1) * ∑ k ∈ range i, |L r k * V k c| + gam ρ.u (i+1) * ((2*(1+ρ.u)^2)^i * M) :=
          le_trans (abs_add_le _ _) (add_le_add e1 e2)
      _ = gam ρ.u (i+1) * (∑ k ∈ range i, |L r k * V k c| + (2*(1+ρ.u)^2)^i * M) := by ring
      _ ≤ gam ρ.u (n+1) * (2^n * (1+ρ.u)^(2*n) * M) :=
          mul_le_mul g2 (by linarith) (by positivity) (le_trans hgn g2)
  · rw [e, if_neg hc2, if_neg hc2, add_zero, add_zero, abs_sub_comm]
    refine le_trans e1 (mul_le_mul g2 (le_trans e3 (dgeom_bound h0 hM0 n i hin)) (by positivity) (le_trans hgn g2))

end TooN.Elim
