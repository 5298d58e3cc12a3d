import Verif.Model.Elim
import Verif.Spec.Linear
import Mathlib.Algebra.Order.Field.Basic
import Mathlib.Algebra.Order.Group.Abs
import Mathlib.LinearAlgebra.Matrix.ToLinearEquiv
import Mathlib.Algebra.BigOperators.Fin
import Mathlib.Tactic.Common
import Mathlib.Tactic.Ring
import Mathlib.Tactic.FieldSimp
import Mathlib.Tactic.LinearCombination
/-! Helper lemmas for elimination algorithms. -/
namespace TooN.Elim
open Finset
section basic
variable {K : Type _}

/-- A loop that rewrites a column range of one row, each entry from its own column. -/
theorem forRange_row (lo hi u : Nat) (g : Nat → (Nat → K) → K) (A : Mat K) (r c : Nat) :
    forRange lo hi (fun j (A : Mat K) => Mat.set A u j (g j (fun k => A k j))) A r c =
      if r = u ∧ lo ≤ c ∧ c < hi then g c (fun k => A k c) else A r c := by
  by_cases hle : lo ≤ hi
  · have := forRange_inv (fun k (B : Mat K) => ∀ r c, B r c =
      if r = u ∧ lo ≤ c ∧ c < k then g c (fun k => A k c) else A r c) lo hi hle
      (fun j (A : Mat K) => Mat.set A u j (g j (fun k => A k j))) A
      (by intro r c; rw [if_neg (by omega)])
      (by
        intro j B h1 h2 hB r c
        rw [Mat.set]
        by_cases e : r = u ∧ c = j
        · rw [if_pos e, if_pos (by omega), e.2]
          congr 1; funext k; rw [hB, if_neg (by omega)]
        · rw [if_neg e, hB]
          by_cases e2 : r = u ∧ lo ≤ c ∧ c < j
          · rw [if_pos e2, if_pos (by omega)]
          · rw [if_neg e2, if_neg (by omega)])
    exact this r c
  · rw [forRange_empty _ _ (by omega), if_neg (by omega)]

theorem swapRows_apply (lo hi p q : Nat) (A : Mat K) (r c : Nat) :
    swapRows lo hi p q A r c =
      if lo ≤ c ∧ c < hi then (if r = q then A p c else if r = p then A q c else A r c) else A r c := by
  unfold swapRows
  by_cases hle : lo ≤ hi
  · have := forRange_inv (fun k (B : Mat K) => ∀ r c, B r c =
      if lo ≤ c ∧ c < k then (if r = q then A p c else if r = p then A q c else A r c) else A r c) lo hi hle
      (fun j A => Mat.set (Mat.set A p j (A q j)) q j (A p j)) A
      (by intro r c; rw [if_neg (by omega)])
      (by
        intro j B h1 h2 hB r c
        simp only [Mat.set]
        by_cases ec : c = j
        · subst ec
          rw [if_pos (by omega : lo ≤ c ∧ c < c + 1)]
          have hBc : ∀ r, B r c = A r c := fun r => by rw [hB, if_neg (by omega)]
          by_cases e : r = q
          · rw [if_pos ⟨e, rfl⟩, if_pos e, hBc]
          · rw [if_neg (by tauto), if_neg e]
            by_cases e2 : r = p
            · rw [if_pos ⟨e2, rfl⟩, if_pos e2, hBc]
            · rw [if_neg (by tauto), if_neg e2, hBc]
        · rw [if_neg (by tauto), if_neg (by tauto), hB]
          by_cases e2 : lo ≤ c ∧ c < j
          · rw [if_pos e2, if_pos (by omega : lo ≤ c ∧ c < j + 1)]
          · rw [if_neg e2, if_neg (by omega)])
    exact this r c
  · rw [forRange_empty _ _ (by omega), if_neg (by omega)]

/-- the pivot search finds an element of largest absolute value, for any total preorder -/
theorem pivotRow_gen [Zero K] [Neg K] [LT K] [DecidableLT K] (hirr : ∀ a : K, ¬ a < a)
    (ht : ∀ a b c : K, a < b → ¬ a < c → ¬ b < c) (n i : Nat) (hi : i < n) (A : Mat K) :
    i ≤ pivotRow n i A ∧ pivotRow n i A < n ∧
      ∀ k, i ≤ k → k < n → ¬ fabs (A (pivotRow n i A) i) < fabs (A k i) := by
  have := forRange_inv (fun ii (st : Nat × K) => i ≤ st.1 ∧ st.1 < ii ∧ st.2 = fabs (A st.1 i) ∧
      ∀ k, i ≤ k → k < ii → ¬ st.2 < fabs (A k i)) (i+1) n (by omega)
    (fun ii (st : Nat × K) => if fabs (A ii i) > st.2 then (ii, fabs (A ii i)) else st) (i, fabs (A i i))
    (by
      refine ⟨Nat.le_refl _, by simp, rfl, ?_⟩
      intro k h1 h2
      have : k = i := by omega
      subst this; exact hirr _)
    (by
      intro ii st h1 h2 ⟨g1, g2, g3, g4⟩
      by_cases h : fabs (A ii i) > st.2
      · rw [if_pos h]
        refine ⟨by simp; omega, by simp, rfl, ?_⟩
        intro k k1 k2
        by_cases e : k = ii
        · subst e; exact hirr _
        · exact ht _ _ _ h (g4 k k1 (by omega))
      · rw [if_neg h]
        refine ⟨g1, by omega, g3, ?_⟩
        intro k k1 k2
        by_cases e : k = ii
        · subst e; exact h
        · exact g4 k k1 (by omega))
  obtain ⟨h1, h2, h3, h4⟩ := this
  refine ⟨h1, h2, ?_⟩
  intro k k1 k2
  unfold pivotRow
  rw [← h3]; exact h4 k k1 k2

end basic
variable {K : Type _} [Field K] [LinearOrder K] [IsStrictOrderedRing K]

theorem fabs_eq (x : K) : fabs x = |x| := by
  unfold fabs
  split_ifs with h
  · exact (abs_of_neg h).symm
  · exact (abs_of_nonneg (not_lt.1 h)).symm

theorem pivotRow_spec (n i : Nat) (hi : i < n) (A : Mat K) :
    i ≤ pivotRow n i A ∧ pivotRow n i A < n ∧
      ∀ k, i ≤ k → k < n → |A k i| ≤ |A (pivotRow n i A) i| := by
  obtain ⟨h1, h2, h3⟩ := pivotRow_gen (fun a => lt_irrefl a)
    (fun a b c hab hac => not_lt.2 (le_trans (not_lt.1 hac) hab.le)) n i hi A
  refine ⟨h1, h2, fun k k1 k2 => ?_⟩
  have := h3 k k1 k2
  rw [fabs_eq, fabs_eq] at this
  exact not_lt.1 this

/-- kernel of the leading `R × C` block -/
def Ker (R C : Nat) (m : Mat K) (w : Vec K) : Prop :=
  ∀ r, r < R → ∑ c ∈ range C, m r c * w c = 0

omit [LinearOrder K] [IsStrictOrderedRing K] in
theorem Ker_congr {R C : Nat} {m m' : Mat K} (w : Vec K)
    (h : ∀ r c, r < R → c < C → m' r c = m r c) : Ker R C m' w ↔ Ker R C m w := by
  have e : ∀ r, r < R → ∑ c ∈ range C, m' r c * w c = ∑ c ∈ range C, m r c * w c := by
    intro r hr
    apply sum_congr rfl
    intro c hc; rw [h r c hr (mem_range.1 hc)]
  constructor
  · intro hk r hr; rw [← e r hr]; exact hk r hr
  · intro hk r hr; rw [e r hr]; exact hk r hr

omit [LinearOrder K] [IsStrictOrderedRing K] in
theorem Ker_swap {R C : Nat} {m m' : Mat K} (w : Vec K) (p q : Nat) (hp : p < R) (hq : q < R)
    (h : ∀ r c, r < R → c < C → m' r c = if r = q then m p c else if r = p then m q c else m r c) :
    Ker R C m' w ↔ Ker R C m w := by
  have e : ∀ r, r < R → ∑ c ∈ range C, m' r c * w c =
      ∑ c ∈ range C, m (if r = q then p else if r = p then q else r) c * w c := by
    intro r hr
    apply sum_congr rfl
    intro c hc; rw [h r c hr (mem_range.1 hc)]
    split
    · rfl
    · split <;> rfl
  constructor
  · intro hk r hr
    have hr' : (if r = q then p else if r = p then q else r) < R := by
      split
      · exact hp
      · split
        · exact hq
        · exact hr
    have := hk _ hr'
    rw [e _ hr'] at this
    have : (if (if r = q then p else if r = p then q else r) = q then p
      else if (if r = q then p else if r = p then q else r) = p then q
      else (if r = q then p else if r = p then q else r)) = r := by
      split_ifs <;> omega
    simp_all
  · intro hk r hr
    rw [e r hr]
    apply hk
    split
    · exact hp
    · split
      · exact hq
      · exact hr

omit [LinearOrder K] [IsStrictOrderedRing K] in
theorem Ker_elim {R C : Nat} {m m' : Mat K} (w : Vec K) (i : Nat) (hi : i < R) (f : Nat → K) (hf : f i = 0)
    (h : ∀ r c, r < R → c < C → m' r c = m r c - f r * m i c) :
    Ker R C m' w ↔ Ker R C m w := by
  have e : ∀ r, r < R → ∑ c ∈ range C, m' r c * w c =
      ∑ c ∈ range C, m r c * w c - f r * ∑ c ∈ range C, m i c * w c := by
    intro r hr
    rw [mul_sum, ← sum_sub_distrib]
    apply sum_congr rfl
    intro c hc; rw [h r c hr (mem_range.1 hc)]; ring
  constructor
  · intro hk
    have hi0 : ∑ c ∈ range C, m i c * w c = 0 := by
      have := hk i hi; rw [e i hi, hf] at this; simpa using this
    intro r hr
    have := hk r hr; rw [e r hr, hi0] at this; simpa using this
  · intro hk r hr
    rw [e r hr, hk r hr, hk i hi]; simp

omit [LinearOrder K] [IsStrictOrderedRing K] in
theorem Ker_scale {R C : Nat} {m m' : Mat K} (w : Vec K) (s : Nat → K) (hs : ∀ r, r < R → s r ≠ 0)
    (h : ∀ r c, r < R → c < C → m' r c = s r * m r c) : Ker R C m' w ↔ Ker R C m w := by
  have e : ∀ r, r < R → ∑ c ∈ range C, m' r c * w c = s r * ∑ c ∈ range C, m r c * w c := by
    intro r hr
    rw [mul_sum]
    apply sum_congr rfl
    intro c hc; rw [h r c hr (mem_range.1 hc)]; ring
  constructor
  · intro hk r hr
    have := hk r hr; rw [e r hr] at this
    exact (mul_eq_zero.1 this).resolve_left (hs r hr)
  · intro hk r hr
    rw [e r hr, hk r hr, mul_zero]

/-- the leading square block has trivial kernel -/
def Trivial (n : Nat) (m : Mat K) : Prop :=
  ∀ x : Vec K, (∀ r, r < n → ∑ c ∈ range n, m r c * x c = 0) → ∀ c, c < n → x c = 0

omit [LinearOrder K] [IsStrictOrderedRing K] in
theorem trivial_iff_det (n : Nat) (m : Mat K) : Trivial n m ↔ (asM n n m).det ≠ 0 := by
  have hsum : ∀ (v : Fin n → K) (x : Vec K), (∀ i : Fin n, x i = v i) → ∀ r : Fin n,
      (asM n n m).mulVec v r = ∑ c ∈ range n, m r c * x c := by
    intro v x hx r
    rw [← Fin.sum_univ_eq_sum_range (fun c => m r c * x c) n]
    simp [Matrix.mulVec, dotProduct, hx]
  constructor
  · intro h hd
    obtain ⟨v, hv, hmv⟩ := Matrix.exists_mulVec_eq_zero_iff.2 hd
    apply hv
    funext i
    let x : Vec K := fun k => if hk : k < n then v ⟨k, hk⟩ else 0
    have hx : ∀ i : Fin n, x i = v i := fun i => by simp [x]
    have := h x (fun r hr => by
      have := hsum v x hx ⟨r, hr⟩
      rw [hmv] at this; exact this.symm) i i.2
    rw [hx] at this; exact this
  · intro hd x hx c hc
    by_contra hne
    apply hd
    rw [← Matrix.exists_mulVec_eq_zero_iff]
    refine ⟨asV n x, ?_, ?_⟩
    · intro h0; exact hne (congrFun h0 ⟨c, hc⟩)
    · funext r
      rw [hsum (asV n x) x (fun _ => rfl)]
      exact hx r r.2

/-- kernel vectors supported on the first `n` columns -/
def ext0 (n : Nat) (x : Vec K) : Vec K := fun c => if c < n then x c else 0
/-- `(x, -e_j)` -/
def extj (n j : Nat) (x : Vec K) : Vec K := fun c => if c < n then x c else if c = j then -1 else 0

omit [LinearOrder K] [IsStrictOrderedRing K] in
theorem sum_ext0 (n C : Nat) (h : n ≤ C) (f : Nat → K) (x : Vec K) :
    ∑ c ∈ range C, f c * ext0 n x c = ∑ c ∈ range n, f c * x c := by
  rw [← sum_subset (range_subset_range.2 h)]
  · apply sum_congr rfl
    intro c hc; rw [ext0, if_pos (mem_range.1 hc)]
  · intro c _ hc
    rw [ext0, if_neg (by simpa using hc), mul_zero]

omit [LinearOrder K] [IsStrictOrderedRing K] in
theorem sum_extj (n j C : Nat) (hn : n ≤ j) (h : j < C) (f : Nat → K) (x : Vec K) :
    ∑ c ∈ range C, f c * extj n j x c = ∑ c ∈ range n, f c * x c - f j := by
  have : ∀ c ∈ range C, f c * extj n j x c = f c * ext0 n x c - (if c = j then f c else 0) := by
    intro c _
    unfold extj ext0
    by_cases h1 : c < n
    · rw [if_pos h1, if_pos h1, if_neg (by omega)]; ring
    · rw [if_neg h1, if_neg h1]
      by_cases h2 : c = j
      · rw [if_pos h2, if_pos h2]; ring
      · rw [if_neg h2, if_neg h2]; ring
  rw [sum_congr rfl this, sum_sub_distrib, sum_ext0 n C (by omega), sum_ite_eq' (range C) j]
  simp [h]

omit [LinearOrder K] [IsStrictOrderedRing K] in
theorem trivial_of_ker {n C : Nat} (h : n ≤ C) {m m' : Mat K} (hk : ∀ w, Ker n C m' w ↔ Ker n C m w)
    (ht : Trivial n m) : Trivial n m' := by
  intro x hx
  apply ht x
  have : Ker n C m' (ext0 n x) := by
    intro r hr; rw [sum_ext0 n C h]; exact hx r hr
  have := (hk _).1 this
  intro r hr
  have := this r hr
  rwa [sum_ext0 n C h] at this

/-- A matrix that is diagonal with nonzero entries in its first `col` columns, and whose column `col`
vanishes from row `col` on, has a nontrivial kernel. -/
theorem not_trivial_of_zero_column (n col : Nat) (hcol : col < n) (m : Mat K)
    (hz : ∀ r c, c < col → r < n → r ≠ c → m r c = 0) (hd : ∀ c, c < col → m c c ≠ 0)
    (hp : ∀ r, col ≤ r → r < n → m r col = 0) : ¬ Trivial n m := by
  intro ht
  let x : Vec K := fun c => if c < col then - m c col / m c c else if c = col then 1 else 0
  have h1 := ht x ?_ col hcol
  · simp [x] at h1
  · intro r hr
    have e : ∀ c ∈ range n, m r c * x c =
        (if c = r then (if r < col then - m r col else 0) else 0) + (if c = col then m r col else 0) := by
      intro c hc
      have hc := mem_range.1 hc
      simp only [x]
      by_cases h1 : c < col
      · rw [if_pos h1, if_neg (by omega : ¬ c = col)]
        by_cases h2 : c = r
        · subst h2; rw [if_pos rfl, if_pos h1]
          have := hd c h1; field_simp; ring
        · rw [if_neg h2, hz r c h1 hr (Ne.symm h2)]; ring
      · rw [if_neg h1]
        by_cases h3 : c = col
        · subst h3
          rw [if_pos rfl, if_pos rfl]
          by_cases h2 : c = r
          · rw [if_pos h2, if_neg (by omega)]; ring
          · rw [if_neg h2]; ring
        · rw [if_neg h3, if_neg h3]
          by_cases h2 : c = r
          · rw [if_pos h2, if_neg (by omega)]; ring
          · rw [if_neg h2]; ring
    rw [sum_congr rfl e, sum_add_distrib, sum_ite_eq' (range n) r, sum_ite_eq' (range n) col,
      if_pos (mem_range.2 hr), if_pos (mem_range.2 hcol)]
    by_cases h : r < col
    · rw [if_pos h]; ring
    · rw [if_neg h, hp r (by omega) hr]; ring

end TooN.Elim
