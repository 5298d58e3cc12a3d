import Verif.Proof.Float
import Verif.Proof.GaussElim
/-! Rounding error analysis of `gaussian_elimination`. -/
set_option linter.unusedSectionVars false
namespace TooN.Elim
open Finset

/-- unit upper triangular factor held in the working matrix -/
noncomputable def uf (S : Mat ℝ) (k c : ℕ) : ℝ := if k < c then S k c else if k = c then 1 else 0

theorem sw_self (i p : ℕ) : sw i p i = p := by
  unfold sw
  by_cases e : i = p
  · rw [if_pos e]; exact e
  · rw [if_neg e, if_pos rfl]

theorem sw_lt {i p r : ℕ} (hr : r < i) (hp : i ≤ p) : sw i p r = r := by
  unfold sw; rw [if_neg (by omega), if_neg (by omega)]

theorem sw_bound {i p r n : ℕ} (hi : i < n) (hp : p < n) (hr : r < n) : sw i p r < n := by
  unfold sw; split_ifs <;> assumption

theorem sw_ge {i p r : ℕ} (hp : i ≤ p) (hr : i ≤ r) : i ≤ sw i p r := by
  unfold sw; split_ifs <;> omega

theorem sw_sw (i p r : ℕ) : sw i p (sw i p r) = r := by
  unfold sw; split_ifs <;> omega

/-- what one elimination step does to the (real values of the) working matrix -/
structure RStep (u : ℝ) (n m i p : ℕ) (S S' : Mat ℝ) : Prop where
  lo : i ≤ p
  hi : p < n
  nz : S p i ≠ 0
  big : ∀ r, i ≤ r → r < n → |S r i| ≤ |S p i|
  old : ∀ r c, r < i → r < c → c < m → S' r c = S r c
  piv : ∀ c, i < c → c < m → ∃ h, Fac u 2 h ∧ S p c = S p i * S' i c * h
  act : ∀ r c, i < r → r < n → i < c → c < m → ∃ g f, Fac u 1 g ∧ Fac u 1 f ∧
    S (sw i p r) c = S' r c * g + S (sw i p r) i * S' i c * f
  pivb : ∀ c, i < c → c < m → |S p i| * |S' i c| ≤ (1+u)^2 * |S p c|
  actb : ∀ r c, i < r → r < n → i < c → c < m →
    |S' r c| ≤ (1+u) * (|S (sw i p r) c| + (1+u) * (|S (sw i p r) i| * |S' i c|))

/-- the loop invariant: the processed part is a factorisation of the row-permuted input -/
structure LUInv (u : ℝ) (n m i : ℕ) (A₀ S : Mat ℝ) (σ : ℕ → ℕ) (L : Mat ℝ) : Prop where
  rng : ∀ r, r < n → σ r < n
  inj : ∀ r s, r < n → s < n → σ r = σ s → r = s
  tri : ∀ r k, r < k → L r k = 0
  big : ∀ k r, k < i → r < n → |L r k| ≤ |L k k|
  nz : ∀ k, k < i → L k k ≠ 0
  fact : ∀ r c, r < n → c < m → ∃ (g : ℝ) (G : ℕ → ℝ), Fac u i g ∧ (∀ k, k < i → Fac u (i+1) (G k)) ∧
    A₀ (σ r) c = ∑ k ∈ range i, L r k * uf S k c * G k + (if i ≤ r ∧ i ≤ c then S r c * g else 0)

theorem LUInv.init (u : ℝ) (h0 : 0 ≤ u) (h1 : u < 1) (n m : ℕ) (A₀ : Mat ℝ) :
    LUInv u n m 0 A₀ A₀ id (fun _ _ => 0) :=
  ⟨fun r h => h, fun r s _ _ h => h, fun _ _ _ => rfl, fun _ _ h => by omega, fun _ h => by omega,
    fun r c _ _ => ⟨1, fun _ => 1, Fac.one h0 h1 0, fun k hk => by omega, by simp⟩⟩

/-- the multipliers after the step -/
noncomputable def nextL (i p : ℕ) (S L : Mat ℝ) : Mat ℝ := fun r k =>
  if k = i then (if i ≤ r then S (sw i p r) i else 0) else L (sw i p r) k

theorem LUInv.step {u : ℝ} (h0 : 0 ≤ u) (h1 : u < 1) {n m i p : ℕ} (hnm : n ≤ m) {A₀ S S' : Mat ℝ} {σ : ℕ → ℕ}
    {L : Mat ℝ} (h : LUInv u n m i A₀ S σ L) (hs : RStep u n m i p S S') (hL : ∀ r k, i ≤ k → L r k = 0) :
    LUInv u n m (i+1) A₀ S' (fun r => σ (sw i p r)) (nextL i p S L) := by
  have hin : i < n := lt_of_le_of_lt hs.lo hs.hi
  have hb : ∀ r, r < n → sw i p r < n := fun r hr => sw_bound hin hs.hi hr
  have eL : ∀ r k, k < i → nextL i p S L r k = L (sw i p r) k := fun r k hk => by
    unfold nextL; rw [if_neg (by omega)]
  have eLi : ∀ r, i ≤ r → nextL i p S L r i = S (sw i p r) i := fun r hr => by
    unfold nextL; rw [if_pos rfl, if_pos hr]
  refine ⟨fun r hr => h.rng _ (hb r hr), ?_, ?_, ?_, ?_, ?_⟩
  · intro r s hr hs' e
    have := h.inj _ _ (hb r hr) (hb s hs') e
    rw [← sw_sw i p r, this, sw_sw]
  · intro r k hrk
    unfold nextL
    by_cases e : k = i
    · rw [if_pos e, if_neg (by omega)]
    · rw [if_neg e]
      by_cases e2 : i ≤ k
      · exact hL _ _ e2
      · rw [sw_lt (by omega) hs.lo]; exact h.tri r k hrk
  · intro k r hk hr
    by_cases e : k = i
    · subst e
      rw [eLi k le_rfl, sw_self]
      by_cases e2 : k ≤ r
      · rw [eLi r e2]; exact hs.big _ (sw_ge hs.lo e2) (hb r hr)
      · unfold nextL; rw [if_pos rfl, if_neg e2, abs_zero]; exact abs_nonneg _
    · rw [eL r k (by omega), eL k k (by omega), sw_lt (by omega : k < i) hs.lo]
      exact h.big k _ (by omega) (hb r hr)
  · intro k hk
    by_cases e : k = i
    · subst e; rw [eLi k le_rfl, sw_self]; exact hs.nz
    · rw [eL k k (by omega), sw_lt (by omega : k < i) hs.lo]; exact h.nz k (by omega)
  · intro r c hr hc
    obtain ⟨g, G, hg, hG, e⟩ := h.fact (sw i p r) c (hb r hr) hc
    have hsum : ∀ G' : ℕ → ℝ, (∀ k, k < i → G' k = G k) →
        ∑ k ∈ range i, nextL i p S L r k * uf S' k c * G' k =
        ∑ k ∈ range i, L (sw i p r) k * uf S k c * G k := by
      intro G' hG'
      refine sum_congr rfl fun k hk => ?_
      have hk := mem_range.1 hk
      rw [eL r k hk, hG' k hk]
      congr 2
      unfold uf
      split_ifs with hkc
      · exact hs.old k c hk hkc hc
      · rfl
      · rfl
    have fin : ∀ G' g' : ℝ, Fac u (i+2) G' → Fac u (i+1) g' →
        (if i ≤ sw i p r ∧ i ≤ c then S (sw i p r) c * g else 0) =
          nextL i p S L r i * uf S' i c * G' + (if i+1 ≤ r ∧ i+1 ≤ c then S' r c * g' else 0) →
        ∃ (g : ℝ) (G : ℕ → ℝ), Fac u (i+1) g ∧ (∀ k, k < i+1 → Fac u (i+1+1) (G k)) ∧
          A₀ (σ (sw i p r)) c = ∑ k ∈ range (i+1), nextL i p S L r k * uf S' k c * G k +
            (if i+1 ≤ r ∧ i+1 ≤ c then S' r c * g else 0) := by
      intro G' g' hG' hg' e'
      refine ⟨g', fun k => if k < i then G k else G', hg', fun k hk => ?_, ?_⟩
      · dsimp only
        split_ifs with hlt
        · exact (hG k hlt).mono h0 h1 (by omega)
        · exact hG'
      · rw [sum_range_succ, hsum _ (fun k hk => if_pos hk), e, e']; beta_reduce; rw [if_neg (lt_irrefl i)]; ring
    by_cases hri : r < i
    · refine fin 1 1 (Fac.one h0 h1 _) (Fac.one h0 h1 _) ?_
      rw [if_neg (by rw [sw_lt hri hs.lo]; omega), if_neg (by omega)]
      unfold nextL; rw [if_pos rfl, if_neg (by omega)]; ring
    · have hir : i ≤ r := by omega
      by_cases hci : c < i
      · refine fin 1 1 (Fac.one h0 h1 _) (Fac.one h0 h1 _) ?_
        rw [if_neg (by omega), if_neg (by omega)]
        unfold uf; rw [if_neg (by omega), if_neg (by omega)]; ring
      · have hw : i ≤ sw i p r ∧ i ≤ c := ⟨sw_ge hs.lo hir, by omega⟩
        by_cases hc2 : c = i
        · subst hc2
          refine fin g 1 (hg.mono h0 h1 (by omega)) (Fac.one h0 h1 _) ?_
          rw [if_pos hw, if_neg (by omega), eLi r hir]
          unfold uf; rw [if_neg (by omega), if_pos rfl]; ring
        · have hic : i < c := by omega
          have huf : uf S' i c = S' i c := by unfold uf; rw [if_pos hic]
          by_cases hr2 : r = i
          · subst hr2
            obtain ⟨f, hf, ef⟩ := hs.piv c hic hc
            refine fin (g * f) 1 (hg.mul h0 h1 hf) (Fac.one h0 h1 _) ?_
            rw [if_pos hw, if_neg (by omega), eLi r le_rfl, huf, sw_self, ef]; ring
          · obtain ⟨a, b, ha, hb', eab⟩ := hs.act r c (by omega) hr hic hc
            refine fin (g * b) (g * a) ((hg.mul h0 h1 hb').mono h0 h1 (by omega)) (hg.mul h0 h1 ha) ?_
            rw [if_pos hw, if_pos (by omega), eLi r hir, huf, eab]; ring

/-- bounds on the size of the working matrix and of the products of factors (columns below `q`) -/
structure Growth (u M : ℝ) (n q i : ℕ) (S L : Mat ℝ) : Prop where
  act : ∀ r c, i ≤ r → r < n → i ≤ c → c < q → |S r c| ≤ (2*(1+u)^4)^i * M
  prod : ∀ k r c, k < i → r < n → c < q → |L r k| * |uf S k c| ≤ (1+u)^2 * (2*(1+u)^4)^k * M

theorem Growth.step {u M : ℝ} (h0 : 0 ≤ u) (hM : 0 ≤ M) {n m q i p : ℕ} (hqm : q ≤ m) {S S' : Mat ℝ}
    {L : Mat ℝ} (h : Growth u M n q i S L) (hs : RStep u n m i p S S') :
    Growth u M n q (i+1) S' (nextL i p S L) := by
  have hin : i < n := lt_of_le_of_lt hs.lo hs.hi
  have hb : ∀ r, r < n → sw i p r < n := fun r hr => sw_bound hin hs.hi hr
  set B := (2*(1+u)^4)^i * M with hB
  have hB0 : 0 ≤ B := by positivity
  have u1 : 1 ≤ 1 + u := by linarith
  have u2 : 1 ≤ (1 + u)^2 := one_le_pow₀ u1
  have key : ∀ r c, i ≤ r → r < n → i < c → c < q → |S (sw i p r) i| * |S' i c| ≤ (1+u)^2 * B := by
    intro r c hir hr hic hc
    calc |S (sw i p r) i| * |S' i c| ≤ |S p i| * |S' i c| :=
          mul_le_mul_of_nonneg_right (hs.big _ (sw_ge hs.lo hir) (hb r hr)) (abs_nonneg _)
      _ ≤ (1+u)^2 * |S p c| := hs.pivb c hic (by omega)
      _ ≤ (1+u)^2 * B := mul_le_mul_of_nonneg_left (h.act p c hs.lo hs.hi hic.le hc) (by positivity)
  refine ⟨?_, ?_⟩
  · intro r c hir hr hic hc
    have e1 := h.act (sw i p r) c (sw_ge hs.lo (by omega)) (hb r hr) (by omega) hc
    rw [← hB] at e1
    have e2 := key r c (by omega) hr (by omega) hc
    calc |S' r c| ≤ (1+u) * (|S (sw i p r) c| + (1+u) * (|S (sw i p r) i| * |S' i c|)) :=
          hs.actb r c (by omega) hr (by omega) (by omega)
      _ ≤ (1+u) * (B + (1+u) * ((1+u)^2 * B)) := by gcongr
      _ = ((1+u) + (1+u)^4) * B := by ring
      _ ≤ (2*(1+u)^4) * B := by
          apply mul_le_mul_of_nonneg_right _ hB0
          have : (1+u)^1 ≤ (1+u)^4 := pow_le_pow_right₀ u1 (by norm_num)
          linarith
      _ = (2*(1+u)^4)^(i+1) * M := by rw [hB]; ring
  · intro k r c hk hr hc
    by_cases e : k = i
    · subst e
      rw [mul_assoc, ← hB]
      by_cases hkr : k ≤ r
      · have : nextL k p S L r k = S (sw k p r) k := by unfold nextL; rw [if_pos rfl, if_pos hkr]
        rw [this]
        unfold uf
        split_ifs with h1 h2
        · exact key r c hkr hr h1 hc
        · subst h2
          rw [abs_one, mul_one]
          refine le_trans (h.act _ k (sw_ge hs.lo hkr) (hb r hr) le_rfl hc) ?_
          exact le_mul_of_one_le_left hB0 u2
        · rw [abs_zero, mul_zero]; positivity
      · have : nextL k p S L r k = 0 := by unfold nextL; rw [if_pos rfl, if_neg hkr]
        rw [this, abs_zero, zero_mul]; positivity
    · have e1 : nextL i p S L r k = L (sw i p r) k := by unfold nextL; rw [if_neg e]
      have e2 : uf S' k c = uf S k c := by
        unfold uf
        split_ifs with hkc
        · exact hs.old k c (by omega) hkc (by omega)
        · rfl
        · rfl
      rw [e1, e2]
      exact h.prod k _ c (by omega) (hb r hr) hc

/-! ### the floating-point program -/
variable {ρ : Rounding}

/-- values of the augmented working matrix `[A | b]` -/
def sval (n : ℕ) (A b : Mat (Fl ρ)) : Mat ℝ := fun r c => if c < n then (A r c).val else (b r (c - n)).val

theorem fl_fabs (x : Fl ρ) : (fabs x).val = |x.val| := by
  unfold fabs
  split_ifs with h
  · rw [Fl.val_neg, abs_of_neg h]
  · rw [abs_of_nonneg (not_lt.1 h)]

theorem fpivot (n i : ℕ) (hi : i < n) (A : Mat (Fl ρ)) :
    i ≤ pivotRow n i A ∧ pivotRow n i A < n ∧
      ∀ k, i ≤ k → k < n → |(A k i).val| ≤ |(A (pivotRow n i A) i).val| := by
  obtain ⟨h1, h2, h3⟩ := pivotRow_gen (K := Fl ρ) (fun a => lt_irrefl a.val)
    (fun a b c (hab : a.val < b.val) (hac : ¬ a.val < c.val) =>
      (not_lt.2 (le_trans (not_lt.1 hac) (le_of_lt hab)) : ¬ b.val < c.val)) n i hi A
  refine ⟨h1, h2, fun k k1 k2 => ?_⟩
  have := h3 k k1 k2
  rw [Fl.lt_def, fl_fabs, fl_fabs] at this
  exact not_lt.1 this

theorem rnd_le (ρ : Rounding) (x : ℝ) : |ρ.rnd x| ≤ (1 + ρ.u) * |x| := by
  have h := ρ.err x
  have : |ρ.rnd x| ≤ |ρ.rnd x - x| + |x| := by
    have := abs_add_le (ρ.rnd x - x) x; rwa [sub_add_cancel] at this
  linarith

/-- one entry of the pivot row -/
theorem fpiv_entry (a p : Fl ρ) (hp : p.val ≠ 0) :
    (∃ h, Fac ρ.u 2 h ∧ a.val = p.val * (a * (1 / p)).val * h) ∧
      |p.val| * |(a * (1 / p)).val| ≤ (1 + ρ.u)^2 * |a.val| := by
  have h0 := ρ.u_nonneg
  have h1 := ρ.u_lt_one
  constructor
  · obtain ⟨x, hx, ex⟩ := Fl.div_fac (1 : Fl ρ) p
    obtain ⟨y, hy, ey⟩ := Fl.mul_fac a (1 / p)
    refine ⟨(x * y)⁻¹, (hx.mul h0 h1 hy).inv h0 h1, ?_⟩
    have a0 := (hx.pos h0 h1).ne'
    have b0 := (hy.pos h0 h1).ne'
    rw [ey, ex, Fl.val_one]; field_simp
  · have e1 := rnd_le ρ (a.val * (1 / p).val)
    have e2 := rnd_le ρ ((1 : Fl ρ).val / p.val)
    rw [Fl.val_mul]
    have hpp : 0 < |p.val| := abs_pos.2 hp
    have e3 : |p.val| * |(1 / p).val| ≤ 1 + ρ.u := by
      rw [Fl.val_div]
      calc |p.val| * |ρ.rnd ((1 : Fl ρ).val / p.val)| ≤ |p.val| * ((1+ρ.u) * |(1 : Fl ρ).val / p.val|) :=
            mul_le_mul_of_nonneg_left e2 hpp.le
        _ = 1 + ρ.u := by rw [Fl.val_one, abs_div, abs_one]; field_simp
    calc |p.val| * |ρ.rnd (a.val * (1 / p).val)| ≤ |p.val| * ((1+ρ.u) * |a.val * (1 / p).val|) :=
          mul_le_mul_of_nonneg_left e1 hpp.le
      _ = (1+ρ.u) * |a.val| * (|p.val| * |(1 / p).val|) := by rw [abs_mul]; ring
      _ ≤ (1+ρ.u) * |a.val| * (1+ρ.u) := mul_le_mul_of_nonneg_left e3 (by positivity)
      _ = (1 + ρ.u)^2 * |a.val| := by ring

/-- one entry of the active block -/
theorem fact_entry (a l x : Fl ρ) :
    (∃ g f, Fac ρ.u 1 g ∧ Fac ρ.u 1 f ∧ a.val = (a - l * x).val * g + l.val * x.val * f) ∧
      |(a - l * x).val| ≤ (1+ρ.u) * (|a.val| + (1+ρ.u) * (|l.val| * |x.val|)) := by
  have h0 := ρ.u_nonneg
  have h1 := ρ.u_lt_one
  constructor
  · obtain ⟨f, hf, ef⟩ := Fl.mul_fac l x
    obtain ⟨g, hg, eg⟩ := Fl.sub_fac a (l * x)
    refine ⟨g⁻¹, f, hg.inv h0 h1, hf, ?_⟩
    have g0 := (hg.pos h0 h1).ne'
    rw [eg, ef]; field_simp; ring
  · have e1 := rnd_le ρ (a.val - (l * x).val)
    have e2 := rnd_le ρ (l.val * x.val)
    rw [Fl.val_sub]
    refine le_trans e1 (mul_le_mul_of_nonneg_left ?_ (by linarith))
    refine le_trans (abs_sub _ _) ?_
    rw [Fl.val_mul]
    rw [abs_mul] at e2
    linarith

/-- everything known after `i` steps -/
def GInv (u : ℝ) (n nc : ℕ) (A₀ b₀ : Mat (Fl ρ)) (i : ℕ) (st : Mat (Fl ρ) × Mat (Fl ρ)) : Prop :=
  ∃ (σ : ℕ → ℕ) (L : Mat ℝ), LUInv u n (n+nc) i (sval n A₀ b₀) (sval n st.1 st.2) σ L ∧
    (∀ r k, i ≤ k → L r k = 0) ∧
    ∀ M, (∀ r c, r < n → c < n → |(A₀ r c).val| ≤ M) → Growth u M n n i (sval n st.1 st.2) L

/-- what the row update `a -= l*x` must satisfy, with unit roundoff `u` -/
def UpdOk (ρ : Rounding) (u : ℝ) (upd : Fl ρ → Fl ρ → Fl ρ → Fl ρ) : Prop :=
  ∀ a l x, (∃ g f, Fac u 1 g ∧ Fac u 1 f ∧ a.val = (upd a l x).val * g + l.val * x.val * f) ∧
    |(upd a l x).val| ≤ (1+u) * (|a.val| + (1+u) * (|l.val| * |x.val|))

theorem updOk_std (ρ : Rounding) : UpdOk ρ ρ.u (fun a l x => a - l * x) := fun a l x => fact_entry a l x

theorem _root_.TooN.Fac.weaken {u v : ℝ} (h1 : v < 1) (huv : u ≤ v) {n : ℕ} {x : ℝ} (hx : 0 ≤ x) (h : Fac u n x) :
    Fac v n x := by
  have e : (1-v)^n ≤ (1-u)^n := pow_le_pow_left₀ (by linarith) (by linarith) n
  exact ⟨le_trans e h.1, le_trans (mul_le_mul_of_nonneg_left e hx) h.2⟩

section upd
variable {u : ℝ} (h1' : u < 1) (hru : ρ.u ≤ u) {upd : Fl ρ → Fl ρ → Fl ρ → Fl ρ} (hupd : UpdOk ρ u upd)
include h1' hru hupd

theorem fge_step (n nc i : ℕ) (hi : i < n) (A b : Mat (Fl ρ)) (hp : A (pivotRow n i A) i ≠ 0) :
    ∃ A' b', geStepU upd n nc i (A, b) = some (A', b') ∧
      RStep u n (n+nc) i (pivotRow n i A) (sval n A b) (sval n A' b') := by
  obtain ⟨A', b', e, hA, hb, hold⟩ := geStepU_gen upd n nc i hi A b _ rfl hp
  obtain ⟨p1, p2, p3⟩ := fpivot n i hi A
  generalize pivotRow n i A = p at *
  have hpv : (A p i).val ≠ 0 := fun h => hp ((Fl.eq_zero_iff _).2 h)
  have sA : ∀ (A b : Mat (Fl ρ)) r c, c < n → sval n A b r c = (A r c).val := fun A b r c h => by
    unfold sval; rw [if_pos h]
  have sB : ∀ (A b : Mat (Fl ρ)) r c, ¬ c < n → sval n A b r c = (b r (c-n)).val := fun A b r c h => by
    unfold sval; rw [if_neg h]
  -- all entries to the right of the pivot column, uniformly
  have hpivrow : ∀ c, i < c → c < n+nc → ∃ a : Fl ρ, sval n A b p c = a.val ∧
      sval n A' b' i c = (a * (1 / A p i)).val := by
    intro c h1 h2
    by_cases hc : c < n
    · exact ⟨A p c, sA _ _ _ _ hc, by rw [sA _ _ _ _ hc, hA i c h1 hc, if_pos rfl]⟩
    · exact ⟨b p (c-n), sB _ _ _ _ hc, by rw [sB _ _ _ _ hc, hb i (c-n) (by omega), if_pos rfl]⟩
  have hact : ∀ r c, i < r → r < n → i < c → c < n+nc → ∃ a x : Fl ρ, sval n A b (sw i p r) c = a.val ∧
      sval n A' b' i c = x.val ∧ sval n A' b' r c = (upd a (A (sw i p r) i) x).val := by
    intro r c hr hrn h1 h2
    by_cases hc : c < n
    · refine ⟨A (sw i p r) c, A p c * (1 / A p i), sA _ _ _ _ hc, ?_, ?_⟩
      · rw [sA _ _ _ _ hc, hA i c h1 hc, if_pos rfl]
      · rw [sA _ _ _ _ hc, hA r c h1 hc, if_neg (by omega), if_pos ⟨hr, hrn⟩]
    · refine ⟨b (sw i p r) (c-n), b p (c-n) * (1 / A p i), sB _ _ _ _ hc, ?_, ?_⟩
      · rw [sB _ _ _ _ hc, hb i (c-n) (by omega), if_pos rfl]
      · rw [sB _ _ _ _ hc, hb r (c-n) (by omega), if_neg (by omega), if_pos ⟨hr, hrn⟩]
  refine ⟨A', b', e, p1, p2, by rw [sA _ _ _ _ hi]; exact hpv, ?_, ?_, ?_, ?_, ?_, ?_⟩
  · intro r h1 h2; rw [sA _ _ _ _ hi, sA _ _ _ _ hi]; exact p3 r h1 h2
  · intro r c h1 h2 h3
    by_cases hc : c < n
    · rw [sA _ _ _ _ hc, sA _ _ _ _ hc, hold r c h1 (by omega)]
    · rw [sB _ _ _ _ hc, sB _ _ _ _ hc, hb r (c-n) (by omega), if_neg (by omega), if_neg (by omega),
        sw_lt h1 p1]
  · intro c h1 h2
    obtain ⟨a, e1, e2⟩ := hpivrow c h1 h2
    rw [e1, e2, sA _ _ _ _ hi]; 
    obtain ⟨h, hh, e4⟩ := (fpiv_entry a (A p i) hpv).1
    exact ⟨h, hh.weaken h1' hru (hh.pos ρ.u_nonneg ρ.u_lt_one).le, e4⟩
  · intro r c h1 h2 h3 h4
    obtain ⟨a, x, e1, e2, e3⟩ := hact r c h1 h2 h3 h4
    rw [e1, e2, e3, sA _ _ _ _ hi]; exact (hupd a _ x).1
  · intro c h1 h2
    obtain ⟨a, e1, e2⟩ := hpivrow c h1 h2
    rw [e1, e2, sA _ _ _ _ hi]; 
    refine le_trans (fpiv_entry a (A p i) hpv).2 (mul_le_mul_of_nonneg_right ?_ (abs_nonneg _))
    exact pow_le_pow_left₀ (by linarith [ρ.u_nonneg]) (by linarith) 2
  · intro r c h1 h2 h3 h4
    obtain ⟨a, x, e1, e2, e3⟩ := hact r c h1 h2 h3 h4
    rw [e1, e2, e3, sA _ _ _ _ hi]; exact (hupd a _ x).2

omit hupd in
theorem GInv.init (n nc : ℕ) (A₀ b₀ : Mat (Fl ρ)) : GInv u n nc A₀ b₀ 0 (A₀, b₀) := by
  refine ⟨id, fun _ _ => 0, LUInv.init _ (le_trans ρ.u_nonneg hru) h1' _ _ _, fun _ _ _ => rfl, fun M hM => ⟨?_, ?_⟩⟩
  · intro r c _ hr _ hc
    rw [pow_zero, one_mul]
    unfold sval
    rw [if_pos hc]; exact hM r c hr hc
  · intro k _ _ hk; omega

theorem GInv.step {n nc : ℕ} {A₀ b₀ : Mat (Fl ρ)} {i : ℕ} (hi : i < n) {st : Mat (Fl ρ) × Mat (Fl ρ)}
    (h : GInv u n nc A₀ b₀ i st) (hp : st.1 (pivotRow n i st.1) i ≠ 0) :
    ∃ st', geStepU upd n nc i st = some st' ∧ GInv u n nc A₀ b₀ (i+1) st' := by
  obtain ⟨A, b⟩ := st
  obtain ⟨σ, L, h1, h2, h3⟩ := h
  obtain ⟨A', b', e, hs⟩ := fge_step h1' hru hupd n nc i hi A b hp
  refine ⟨(A', b'), e, _, nextL i _ (sval n A b) L,
    h1.step (le_trans ρ.u_nonneg hru) h1' (by omega) hs h2, ?_, ?_⟩
  · intro r k hk
    unfold nextL; rw [if_neg (by omega)]; exact h2 _ _ (by omega)
  · intro M hM
    have hM0 : 0 ≤ M := le_trans (abs_nonneg _) (hM i i hi hi)
    exact (h3 M hM).step (le_trans ρ.u_nonneg hru) hM0 (by omega) hs


/-- the outer loop either completes or stops at a step whose pivot column is zero -/
theorem ge_loop (n nc : ℕ) (A b : Mat (Fl ρ)) :
    ∀ i, i ≤ n → (∃ st, forNM i (geStepU upd n nc) (A, b) = some st ∧ GInv u n nc A b i st) ∨
      (forNM i (geStepU upd n nc) (A, b) = none ∧ ∃ j st, j < i ∧ GInv u n nc A b j st ∧
        ∀ r, j ≤ r → r < n → (st.1 r j).val = 0) := by
  intro i
  induction i with
  | zero => intro _; exact Or.inl ⟨(A, b), rfl, GInv.init h1' hru n nc A b⟩
  | succ i ih =>
    intro hi
    rcases ih (by omega) with ⟨st, e, h⟩ | ⟨e, j, st, hj, h, hz⟩
    · by_cases hp : st.1 (pivotRow n i st.1) i = 0
      · right
        refine ⟨by rw [forNM_succ, e]; exact geStepU_none upd n nc i st.1 st.2 hp, i, st, by omega, h, ?_⟩
        intro r h1 h2
        obtain ⟨-, -, p3⟩ := fpivot n i (by omega) st.1
        have := p3 r h1 h2
        rw [hp, Fl.val_zero, abs_zero] at this
        exact abs_nonpos_iff.1 this
      · left
        obtain ⟨st', e', h'⟩ := h.step h1' hru hupd (by omega) hp
        exact ⟨st', by rw [forNM_succ, e]; exact e', h'⟩
    · right
      exact ⟨by rw [forNM_succ, e]; rfl, j, st, by omega, h, hz⟩

end upd

/-- back substitution in floating point -/
theorem fge_back (n nc : ℕ) (A b x : Mat (Fl ρ)) (k : ℕ) (hk : k < nc) :
    ∃ F : ℕ → ℕ → ℝ, (∀ r j, r < n → j < n → Fac ρ.u (n-1) (F r j)) ∧ ∀ r, r < n →
      (b r k).val = ∑ j ∈ range n, uf (sval n A b) r j * (geBack n nc A b x j k).val * F r j := by
  have h0 := ρ.u_nonneg
  have h1 := ρ.u_lt_one
  have : ∀ r, ∃ F : ℕ → ℝ, r < n → (∀ j, j < n → Fac ρ.u (n-1) (F j)) ∧
      (b r k).val = ∑ j ∈ range n, uf (sval n A b) r j * (geBack n nc A b x j k).val * F j := by
    intro r
    by_cases hr : r < n
    · obtain ⟨g, f, hg, hf, e⟩ := forRange_sub_fac (r+1) n (A r) (fun j => geBack n nc A b x j k) (b r k)
      rw [← geBack_gen n nc A b x r k hr hk] at e
      refine ⟨fun j => if r < j then f j else if j = r then g else 1, fun _ => ⟨?_, ?_⟩⟩
      · intro j hj
        dsimp only
        split_ifs with c1 c2
        · exact (hf j (by omega) hj).mono h0 h1 (by omega)
        · exact hg.mono h0 h1 (by omega)
        · exact Fac.one h0 h1 _
      · have hz : ∑ j ∈ Ico 0 r, uf (sval n A b) r j * (geBack n nc A b x j k).val *
            (if r < j then f j else if j = r then g else 1) = 0 := by
          refine sum_eq_zero fun j hj => ?_
          have := mem_Ico.1 hj
          unfold uf; rw [if_neg (by omega), if_neg (by omega)]; ring
        beta_reduce
        rw [e, Finset.range_eq_Ico, ← sum_Ico_consecutive _ (Nat.zero_le r) hr.le, hz, zero_add,
          sum_eq_sum_Ico_succ_bot hr]
        congr 1
        · unfold uf; rw [if_neg (by omega), if_pos rfl, if_neg (by omega), if_pos rfl]; ring
        · refine sum_congr rfl fun j hj => ?_
          have := mem_Ico.1 hj
          unfold uf sval
          rw [if_pos (by omega), if_pos (by omega), if_pos (by omega)]
    · exact ⟨fun _ => 1, fun h => absurd h hr⟩
  choose F hF using this
  exact ⟨F, fun r j hr hj => (hF r hr).1 j hj, fun r hr => (hF r hr).2⟩

end TooN.Elim
