import Verif.Model.GRSVD
import Verif.Spec.Linear
import Mathlib.Algebra.BigOperators.Intervals
import Mathlib.Algebra.BigOperators.Field
import Mathlib.Algebra.Order.BigOperators.Group.Finset
import Mathlib.Tactic
/-! # GR_SVD: closed forms of the Householder steps -/
set_option linter.unusedSectionVars false
set_option linter.unusedVariables false
namespace TooN.GRSVD
open Finset
open scoped Classical
noncomputable section

theorem forRange_sum (lo hi : Nat) (f : Nat → ℝ) : forRange lo hi (fun k s => s + f k) 0 = ∑ k ∈ Ico lo hi, f k := by
  by_cases h : lo ≤ hi
  · refine forRange_inv (fun n s => s = ∑ k ∈ Ico lo n, f k) lo hi h _ 0 (by simp) ?_
    intro n s h1 h2 ih
    rw [Finset.sum_Ico_succ_top h1, ih]
  · rw [forRange_empty _ _ (by omega), Finset.Ico_eq_empty (by omega), Finset.sum_empty]

/-- writing a column, each element computed from the matrix as it is at that moment -/
theorem colWrite (lo hi j : Nat) (F : Nat → Mat ℝ → ℝ) (G : Nat → ℝ) (X : Mat ℝ)
    (hF : ∀ k Y, lo ≤ k → k < hi → (∀ a b, ¬ (b = j ∧ lo ≤ a ∧ a < k) → Y a b = X a b) → F k Y = G k) (a b : Nat) :
    forRange lo hi (fun k Y => Mat.set Y k j (F k Y)) X a b = if b = j ∧ lo ≤ a ∧ a < hi then G a else X a b := by
  by_cases h : lo ≤ hi
  · have := forRange_inv (fun n (Y : Mat ℝ) => ∀ a b, Y a b = if b = j ∧ lo ≤ a ∧ a < n then G a else X a b) lo hi h
      (fun k Y => Mat.set Y k j (F k Y)) X (fun a b => by rw [if_neg (by omega)]) ?_
    · exact this a b
    intro n Y h1 h2 ih a b
    by_cases e : a = n ∧ b = j
    · rw [e.1, e.2, Mat.set_self, if_pos (by omega)]
      exact hF n Y h1 h2 (fun a b hn => by rw [ih, if_neg hn])
    · rw [Mat.set_ne _ _ _ _ _ _ e, ih]
      by_cases g : b = j ∧ lo ≤ a ∧ a < n
      · rw [if_pos g, if_pos (by omega)]
      · rw [if_neg g, if_neg (by omega)]
  · rw [forRange_empty _ _ (by omega), if_neg (by omega)]

/-- the loop applying a reflection to the columns `jlo … jhi-1` -/
theorem updCols (lo hi jlo jhi i slo : Nat) (hs : lo ≤ slo) (hi' : ¬ (jlo ≤ i ∧ i < jhi)) (q : ℝ) (X : Mat ℝ) (a b : Nat) :
    forRange jlo jhi (fun j Y =>
      let f := (forRange slo hi (fun k s => s + Y k i * Y k j) 0) * q
      forRange lo hi (fun k Y => Mat.set Y k j (Y k j + f * Y k i)) Y) X a b =
    if (jlo ≤ b ∧ b < jhi) ∧ lo ≤ a ∧ a < hi then X a b + (∑ k ∈ Ico slo hi, X k i * X k b) * q * X a i else X a b := by
  by_cases h : jlo ≤ jhi
  · have := forRange_inv (fun n (Y : Mat ℝ) => ∀ a b, Y a b = if (jlo ≤ b ∧ b < n) ∧ lo ≤ a ∧ a < hi then
        X a b + (∑ k ∈ Ico slo hi, X k i * X k b) * q * X a i else X a b) jlo jhi h
      (fun j Y =>
        let f := (forRange slo hi (fun k s => s + Y k i * Y k j) 0) * q
        forRange lo hi (fun k Y => Mat.set Y k j (Y k j + f * Y k i)) Y) X (fun a b => by rw [if_neg (by omega)]) ?_
    · exact this a b
    intro n Y h1 h2 ih a b
    have hYi : ∀ a, Y a i = X a i := by intro a; rw [ih, if_neg (by omega)]
    have hYn : ∀ a, Y a n = X a n := by intro a; rw [ih, if_neg (by omega)]
    beta_reduce
    rw [forRange_sum]
    simp only [hYi, hYn]
    rw [colWrite lo hi n _ (fun k => X k n + (∑ k ∈ Ico slo hi, X k i * X k n) * q * X k i) Y ?_ a b]
    · by_cases e : b = n ∧ lo ≤ a ∧ a < hi
      · rw [if_pos e, if_pos (by omega), e.1]
      · rw [if_neg e, ih]
        by_cases g : (jlo ≤ b ∧ b < n) ∧ lo ≤ a ∧ a < hi
        · rw [if_pos g, if_pos (by omega)]
        · rw [if_neg g, if_neg (by omega)]
    · intro k Z h3 h4 hZ
      rw [hZ k n (by omega), hZ k i (by omega), hYi, hYn]
  · rw [forRange_empty _ _ (by omega), if_neg (by omega)]

theorem scaleOf_eq (lo hi j : Nat) (X : Mat ℝ) : scaleOf lo hi j X = ∑ k ∈ Ico lo hi, |X k j| := forRange_sum lo hi _

theorem normalise_eq (lo hi j : Nat) (hle : lo ≤ hi) (σ : ℝ) (X : Mat ℝ) :
    (∀ a b, (normalise lo hi j σ X).1 a b = if b = j ∧ lo ≤ a ∧ a < hi then X a j / σ else X a b) ∧
    (normalise lo hi j σ X).2 = ∑ k ∈ Ico lo hi, (X k j / σ) * (X k j / σ) := by
  unfold normalise
  refine forRange_inv (fun n (st : Mat ℝ × ℝ) => (∀ a b, st.1 a b = if b = j ∧ lo ≤ a ∧ a < n then X a j / σ else X a b) ∧
    st.2 = ∑ k ∈ Ico lo n, (X k j / σ) * (X k j / σ)) lo hi hle _ (X, 0) ⟨fun a b => by rw [if_neg (by omega)], by simp⟩ ?_
  rintro n ⟨Y, s⟩ h1 h2 ⟨g1, g2⟩
  simp only at g1 g2
  have hn : Y n j = X n j := by rw [g1, if_neg (by omega)]
  refine ⟨?_, ?_⟩
  · intro a b
    show Mat.set Y n j (Y n j / σ) a b = _
    by_cases e : a = n ∧ b = j
    · rw [e.1, e.2, Mat.set_self, if_pos (by omega), hn]
    · rw [Mat.set_ne _ _ _ _ _ _ e, g1]
      by_cases g : b = j ∧ lo ≤ a ∧ a < n
      · rw [if_pos g, if_pos (by omega)]
      · rw [if_neg g, if_neg (by omega)]
  · show s + Mat.set Y n j (Y n j / σ) n j * Mat.set Y n j (Y n j / σ) n j = _
    rw [Mat.set_self, Finset.sum_Ico_succ_top h1, g2, hn]

theorem rescale_eq (lo hi j : Nat) (σ : ℝ) (X : Mat ℝ) (a b : Nat) :
    rescale lo hi j σ X a b = if b = j ∧ lo ≤ a ∧ a < hi then X a j * σ else X a b :=
  colWrite lo hi j (fun k Y => Y k j * σ) (fun k => X k j * σ) X (fun k Y h1 h2 h => by rw [h k j (by omega)]) a b

/-- a Householder step: the reflection that maps the part `lo … hi-1` of column `i` of `X` to `ρ` times the first unit vector is
applied to the columns `jlo … jhi-1`; its vector `u` is left in column `i` -/
def House (lo hi i jlo jhi : Nat) (X X' : Mat ℝ) (ρ : ℝ) : Prop :=
  (ρ = 0 ∧ (∀ k, lo ≤ k → k < hi → X k i = 0) ∧ X' = X) ∨
  (ρ ≠ 0 ∧ X lo i - ρ ≠ 0 ∧ ∑ k ∈ Ico lo hi, X k i * X k i = ρ * ρ ∧
    ∀ a b, X' a b = if lo ≤ a ∧ a < hi then
        (if b = i then X a i - (if a = lo then ρ else 0)
         else if jlo ≤ b ∧ b < jhi then
          X a b + (∑ k ∈ Ico lo hi, (X k i - (if k = lo then ρ else 0)) * X k b) / (ρ * (X lo i - ρ)) *
            (X a i - (if a = lo then ρ else 0))
         else X a b)
      else X a b)

/-- the arithmetic of a Householder step with scaling: `U1` is the matrix after normalising and the change of the pivot, `U2`
after the update of the columns -/
theorem house_scaled (lo hi i jlo jhi : Nat) (hlo : lo < hi) (hij : ¬ (jlo ≤ i ∧ i < jhi)) (X : Mat ℝ)
    (hσ : scaleOf lo hi i X ≠ 0) :
    let σ := scaleOf lo hi i X
    let ns := normalise lo hi i σ X
    let f := ns.1 lo i
    let g := signedRoot f ns.2
    let h := f * g - ns.2
    let U1 := Mat.set ns.1 lo i (f - g)
    h ≠ 0 ∧ σ * g ≠ 0 ∧
    ∀ U2 : Mat ℝ, (∀ a b, U2 a b = if (jlo ≤ b ∧ b < jhi) ∧ lo ≤ a ∧ a < hi then
        U1 a b + (∑ k ∈ Ico lo hi, U1 k i * U1 k b) / h * U1 a i else U1 a b) →
      House lo hi i jlo jhi X (rescale lo hi i σ U2) (σ * g) := by
  intro σ ns f g h U1
  obtain ⟨hn1, hn2⟩ := normalise_eq lo hi i hlo.le σ X
  have hσ0 : σ ≠ 0 := hσ
  have hσe : σ = ∑ k ∈ Ico lo hi, |X k i| := scaleOf_eq lo hi i X
  set s := ns.2 with hs
  have hf : f = X lo i / σ := by show (normalise lo hi i σ X).1 lo i = _; rw [hn1, if_pos (by omega)]
  have hsv : s = ∑ k ∈ Ico lo hi, (X k i / σ) * (X k i / σ) := hn2
  have hs0 : 0 < s := by
    have hnn : 0 ≤ s := by rw [hsv]; exact Finset.sum_nonneg (fun k _ => mul_self_nonneg _)
    rcases hnn.lt_or_eq with h | h
    · exact h
    · exfalso
      apply hσ0
      rw [hσe]
      have hz := (Finset.sum_eq_zero_iff_of_nonneg (fun k _ => mul_self_nonneg (X k i / σ))).mp (hsv.symm.trans h.symm)
      refine Finset.sum_eq_zero (fun k hk => ?_)
      have := hz k hk
      have := mul_self_eq_zero.mp this
      rcases div_eq_zero_iff.mp this with q | q
      · rw [q, abs_zero]
      · exact absurd q hσ0
  have hr := Real.sqrt_pos.mpr hs0
  have hrs := Real.mul_self_sqrt hs0.le
  have hg : g * g = s ∧ g ≠ 0 ∧ f - g ≠ 0 := by
    show signedRoot f s * signedRoot f s = s ∧ signedRoot f s ≠ 0 ∧ f - signedRoot f s ≠ 0
    unfold signedRoot
    by_cases hf0 : f ≥ 0
    · rw [if_pos hf0]
      refine ⟨by linarith, by simpa using hr.ne', ?_⟩
      have : 0 < f - -Real.sqrt s := by linarith
      exact this.ne'
    · rw [if_neg hf0]
      push Not at hf0
      refine ⟨by linarith, by simpa using hr.ne', ?_⟩
      have : f - -(-Real.sqrt s) < 0 := by linarith
      exact this.ne
  obtain ⟨hgg, hg0, hfg⟩ := hg
  have hh : h = g * (f - g) := by show f * g - s = _; rw [← hgg]; ring
  have hh0 : h ≠ 0 := by rw [hh]; exact mul_ne_zero hg0 hfg
  have hX0 : X lo i - σ * g = σ * (f - g) := by rw [hf]; field_simp
  refine ⟨hh0, mul_ne_zero hσ0 hg0, ?_⟩
  intro U2 hU2
  right
  refine ⟨mul_ne_zero hσ0 hg0, ?_, ?_, ?_⟩
  · rw [hX0]; exact mul_ne_zero hσ0 hfg
  · have : σ * g * (σ * g) = σ * σ * s := by rw [← hgg]; ring
    rw [this, hsv, Finset.mul_sum]
    refine Finset.sum_congr rfl (fun k _ => ?_)
    field_simp
  · have hU1i : ∀ k, lo ≤ k → k < hi → U1 k i * σ = X k i - (if k = lo then σ * g else 0) := by
      intro k h1 h2
      by_cases e : k = lo
      · rw [if_pos e]; subst e
        show Mat.set ns.1 k i (f - g) k i * σ = _
        rw [Mat.set_self, hX0]; ring
      · rw [if_neg e]
        show Mat.set ns.1 lo i (f - g) k i * σ = _
        rw [Mat.set_ne _ _ _ _ _ _ (by omega), hn1, if_pos (by omega)]
        field_simp; simp
    have hU1b : ∀ a b, b ≠ i → U1 a b = X a b := by
      intro a b hb
      show Mat.set ns.1 lo i (f - g) a b = _
      rw [Mat.set_ne _ _ _ _ _ _ (by omega), hn1, if_neg (by omega)]
    have hU1o : ∀ a b, ¬ (lo ≤ a ∧ a < hi) → U1 a b = X a b := by
      intro a b hb
      show Mat.set ns.1 lo i (f - g) a b = _
      rw [Mat.set_ne _ _ _ _ _ _ (by omega), hn1, if_neg (by omega)]
    intro a b
    rw [rescale_eq]
    by_cases ha : lo ≤ a ∧ a < hi
    · rw [if_pos ha]
      by_cases hb : b = i
      · rw [if_pos ⟨hb, ha⟩, if_pos hb, hU2, if_neg (by omega)]
        exact hU1i a ha.1 ha.2
      · rw [if_neg (fun q => hb q.1), if_neg hb, hU2]
        by_cases hj : jlo ≤ b ∧ b < jhi
        · rw [if_pos ⟨hj, ha⟩, if_pos hj, hU1b a b hb, hX0, ← hU1i a ha.1 ha.2]
          have e : ∑ k ∈ Ico lo hi, (X k i - (if k = lo then σ * g else 0)) * X k b =
              σ * ∑ k ∈ Ico lo hi, U1 k i * U1 k b := by
            rw [Finset.mul_sum]
            refine Finset.sum_congr rfl (fun k hk => ?_)
            have := Finset.mem_Ico.mp hk
            rw [← hU1i k this.1 this.2, hU1b k b hb]; ring
          rw [e, hh]
          field_simp
        · rw [if_neg (fun q => hj q.1), if_neg hj, hU1b a b hb]
    · rw [if_neg (fun q => ha q.2), if_neg ha, hU2, if_neg (fun q => ha q.2)]
      exact hU1o a b ha

theorem scale_zero (lo hi i : Nat) (X : Mat ℝ) (h : scaleOf lo hi i X = 0) (k : Nat) (h1 : lo ≤ k) (h2 : k < hi) : X k i = 0 := by
  rw [scaleOf_eq] at h
  have := (Finset.sum_eq_zero_iff_of_nonneg (fun k _ => abs_nonneg (X k i))).mp h k (Finset.mem_Ico.mpr ⟨h1, h2⟩)
  exact abs_eq_zero.mp this

theorem leftHalf_spec (M N i : Nat) (hi : i < M) (hiN : i < N) (U : Mat ℝ) :
    ∃ U' σ g, leftHalf M N i U = some (U', σ, g) ∧ House i M i (i + 1) N U U' (σ * g) := by
  unfold leftHalf
  rw [if_pos hi]
  by_cases hσ : scaleOf i M i U = 0
  · rw [if_neg (by simpa using hσ)]
    exact ⟨_, _, _, rfl, Or.inl ⟨by simp, fun k h1 h2 => scale_zero _ _ _ _ hσ k h1 h2, rfl⟩⟩
  · obtain ⟨h0, _, hU⟩ := house_scaled i M i (i + 1) N hi (by omega) U hσ
    rw [if_pos hσ]
    simp only
    by_cases hN : i = N - 1
    · rw [if_neg (by simpa using hN)]
      refine ⟨_, _, _, rfl, hU _ ?_⟩
      intro a b
      rw [if_neg (by omega)]
    · rw [if_pos hN, if_neg h0]
      refine ⟨_, _, _, rfl, hU _ ?_⟩
      intro a b
      have := updCols i M (i + 1) N i i le_rfl (by omega)
        (1 / ((normalise i M i (scaleOf i M i U) U).1 i i * signedRoot ((normalise i M i (scaleOf i M i U) U).1 i i)
          (normalise i M i (scaleOf i M i U) U).2 - (normalise i M i (scaleOf i M i U) U).2))
        (Mat.set (normalise i M i (scaleOf i M i U) U).1 i i ((normalise i M i (scaleOf i M i U) U).1 i i -
          signedRoot ((normalise i M i (scaleOf i M i U) U).1 i i) (normalise i M i (scaleOf i M i U) U).2)) a b
      simp only [mul_one_div] at this
      exact this

/-- the row update of `rightHalf` is the column update on the transpose -/
theorem updRows (l N M i : Nat) (hil : i < l) (h : ℝ) (e : Vec ℝ) (U : Mat ℝ) (he : ∀ k, l ≤ k → k < N → e k = U i k / h)
    (a b : Nat) :
    forRange l M (fun j U =>
      let s := forRange l N (fun k s => s + U j k * U i k) 0
      forRange l N (fun k U => Mat.set U j k (U j k + s * e k)) U) U b a =
    if (l ≤ b ∧ b < M) ∧ l ≤ a ∧ a < N then U.T a b + (∑ k ∈ Ico l N, U.T k i * U.T k b) / h * U.T a i else U.T a b := by
  have rowW : ∀ (j : Nat) (s : ℝ) (Y : Mat ℝ) (a b : Nat), forRange l N (fun k U => Mat.set U j k (U j k + s * e k)) Y b a =
      if b = j ∧ l ≤ a ∧ a < N then Y b a + s * e a else Y b a := by
    intro j s Y a b
    by_cases hl : l ≤ N
    · have := forRange_inv (fun n (Z : Mat ℝ) => ∀ b a, Z b a = if b = j ∧ l ≤ a ∧ a < n then Y b a + s * e a else Y b a) l N hl
        (fun k U => Mat.set U j k (U j k + s * e k)) Y (fun b a => by rw [if_neg (by omega)]) ?_
      · exact this b a
      intro n Z h1 h2 ih b a
      by_cases q : b = j ∧ a = n
      · rw [q.1, q.2, Mat.set_self, if_pos (by omega), ih, if_neg (by omega)]
      · rw [Mat.set_ne _ _ _ _ _ _ q, ih]
        by_cases g : b = j ∧ l ≤ a ∧ a < n
        · rw [if_pos g, if_pos (by omega)]
        · rw [if_neg g, if_neg (by omega)]
    · rw [forRange_empty _ _ (by omega), if_neg (by omega)]
  by_cases hl : l ≤ M
  · have := forRange_inv (fun n (Y : Mat ℝ) => ∀ b a, Y b a = if (l ≤ b ∧ b < n) ∧ l ≤ a ∧ a < N then
        U b a + (∑ k ∈ Ico l N, U i k * U b k) / h * U i a else U b a) l M hl
      (fun j U =>
        let s := forRange l N (fun k s => s + U j k * U i k) 0
        forRange l N (fun k U => Mat.set U j k (U j k + s * e k)) U) U (fun b a => by rw [if_neg (by omega)]) ?_
    · exact this b a
    intro n Y h1 h2 ih b a
    have hYi : ∀ a, Y i a = U i a := by intro a; rw [ih, if_neg (by omega)]
    have hYn : ∀ a, Y n a = U n a := by intro a; rw [ih, if_neg (by omega)]
    beta_reduce
    rw [forRange_sum, rowW]
    simp only [hYi, hYn]
    by_cases q : b = n ∧ l ≤ a ∧ a < N
    · rw [if_pos q, if_pos (by omega), q.1, hYn, he a q.2.1 q.2.2]
      have : ∑ k ∈ Ico l N, U n k * U i k = ∑ k ∈ Ico l N, U i k * U n k :=
        Finset.sum_congr rfl (fun k _ => mul_comm _ _)
      rw [this]; ring
    · rw [if_neg q, ih]
      by_cases g : (l ≤ b ∧ b < n) ∧ l ≤ a ∧ a < N
      · rw [if_pos g, if_pos (by omega)]
      · rw [if_neg g, if_neg (by omega)]
  · rw [forRange_empty _ _ (by omega), if_neg (by omega)]; rfl

theorem rightHalf_spec (M N i : Nat) (hi : i < M) (hiN : i + 1 < N) (U : Mat ℝ) (e : Vec ℝ) :
    ∃ U' e' σ g, rightHalf M N i U e = some (U', e', σ, g) ∧ House (i + 1) N i (i + 1) M U.T U'.T (σ * g) ∧
      ∀ j, j ≤ i → e' j = e j := by
  unfold rightHalf
  rw [if_pos (by omega)]
  by_cases hσ : scaleOf (i + 1) N i U.T = 0
  · simp only
    rw [if_neg (by simpa using hσ)]
    exact ⟨_, _, _, _, rfl, Or.inl ⟨by simp, fun k h1 h2 => scale_zero _ _ _ _ hσ k h1 h2, rfl⟩, fun _ _ => rfl⟩
  · obtain ⟨h0, _, hU⟩ := house_scaled (i + 1) N i (i + 1) M hiN (by omega) U.T hσ
    simp only
    rw [if_pos hσ]
    generalize hns : normalise (i + 1) N i (scaleOf (i + 1) N i U.T) U.T = ns at *
    have hT : ns.1.T i (i + 1) = ns.1 (i + 1) i := rfl
    simp only [hT]
    rw [if_neg h0]
    have eW : ∀ (F : Nat → ℝ) (e : Vec ℝ) (n : Nat), i + 1 ≤ n → ∀ j, forRange (i + 1) n (fun k e => Vec.set e k (F k)) e j =
        if i + 1 ≤ j ∧ j < n then F j else e j := by
      intro F e n hn j
      have := forRange_inv (fun m (v : Vec ℝ) => ∀ j, v j = if i + 1 ≤ j ∧ j < m then F j else e j) (i + 1) n hn
        (fun k e => Vec.set e k (F k)) e (fun j => by rw [if_neg (by omega)]) ?_
      · exact this j
      intro m v h1 h2 ih j
      by_cases q : j = m
      · rw [q, Vec.set_self, if_pos (by omega)]
      · rw [Vec.set_ne _ _ _ _ q, ih]
        by_cases g : i + 1 ≤ j ∧ j < m
        · rw [if_pos g, if_pos (by omega)]
        · rw [if_neg g, if_neg (by omega)]
    have hset : ∀ y, Mat.set ns.1.T i (i + 1) y = (Mat.set ns.1 (i + 1) i y).T := by
      intro y; funext a b; simp only [Mat.set, Mat.T]
      by_cases q : a = i ∧ b = i + 1
      · rw [if_pos q, if_pos ⟨q.2, q.1⟩]
      · rw [if_neg q, if_neg (fun w => q ⟨w.2, w.1⟩)]
    refine ⟨_, _, _, _, rfl, ?_, ?_⟩
    · refine hU _ ?_
      intro a b
      by_cases hM : i = M - 1
      · rw [if_neg (by simpa using hM), if_neg (by omega), hset]; rfl
      · rw [if_pos hM]
        rw [Mat.T, updRows (i + 1) N M i (by omega) (ns.1 (i + 1) i * signedRoot (ns.1 (i + 1) i) ns.2 - ns.2)]
        · rw [hset]; rfl
        · intro k h1 h2
          rw [eW (fun k => Mat.set ns.1.T i (i + 1) (ns.1 (i + 1) i - signedRoot (ns.1 (i + 1) i) ns.2) i k /
            (ns.1 (i + 1) i * signedRoot (ns.1 (i + 1) i) ns.2 - ns.2)) e N hiN.le k, if_pos ⟨h1, h2⟩]
    · intro j hj
      rw [eW (fun k => Mat.set ns.1.T i (i + 1) (ns.1 (i + 1) i - signedRoot (ns.1 (i + 1) i) ns.2) i k /
            (ns.1 (i + 1) i * signedRoot (ns.1 (i + 1) i) ns.2 - ns.2)) e N hiN.le j, if_neg (by omega)]

end
end TooN.GRSVD
