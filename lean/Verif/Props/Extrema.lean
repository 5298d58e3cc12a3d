import Verif.Model.Helpers
import Mathlib.Order.Defs.LinearOrder
import Mathlib.Order.OrderDual
/-!
# C43: min/max queries return a first extremum

`less`/`greater` are `std::less`/`std::greater`; for every linearly ordered element type, size and contents.
(A NaN-free double array is such a thing.)
-/
set_option linter.unusedSectionVars false
namespace TooN.Helpers
variable {K : Type _} [LinearOrder K]

/-- `x` is the smallest of `v[0..n)` and `i` the first place where it occurs -/
structure FirstMin (n : Nat) (v : Nat → K) (x : K) (i : Nat) : Prop where
  lt : i < n
  val : x = v i
  le : ∀ j, j < n → x ≤ v j
  first : ∀ j, j < i → x < v j

/-- `x` is the largest of `v[0..n)` and `i` the first place where it occurs -/
structure FirstMax (n : Nat) (v : Nat → K) (x : K) (i : Nat) : Prop where
  lt : i < n
  val : x = v i
  ge : ∀ j, j < n → v j ≤ x
  first : ∀ j, j < i → v j < x

/-- the same for a matrix in row-major order -/
structure FirstMinM (R C : Nat) (m : Nat → Nat → K) (x : K) (r c : Nat) : Prop where
  ltr : r < R
  ltc : c < C
  val : x = m r c
  le : ∀ r' c', r' < R → c' < C → x ≤ m r' c'
  first : ∀ r' c', c' < C → (r' < r ∨ (r' = r ∧ c' < c)) → x < m r' c'

structure FirstMaxM (R C : Nat) (m : Nat → Nat → K) (x : K) (r c : Nat) : Prop where
  ltr : r < R
  ltc : c < C
  val : x = m r c
  ge : ∀ r' c', r' < R → c' < C → m r' c' ≤ x
  first : ∀ r' c', c' < C → (r' < r ∨ (r' = r ∧ c' < c)) → m r' c' < x

section generic
variable (cmp : K → K → Bool) (hcmp : ∀ a b, cmp a b = true ↔ a < b)
include hcmp

theorem loopV (n : Nat) (hn : 1 ≤ n) (v : Vec K) :
    let s := forRange 1 n (fun ii (s : K × Nat) => if cmp (v ii) s.1 then (v ii, ii) else s) (v 0, 0)
    FirstMin n v s.1 s.2 := by
  refine forRange_inv (fun k (s : K × Nat) => FirstMin k v s.1 s.2) 1 n hn _ _ ?_ ?_
  · exact ⟨by omega, rfl, fun j hj => by rw [show j = 0 by omega], fun j hj => by omega⟩
  · intro i t _ _ ht
    by_cases h : cmp (v i) t.1 = true
    · rw [if_pos h]
      have hlt := (hcmp _ _).1 h
      refine ⟨by omega, rfl, ?_, ?_⟩
      · intro j hj
        by_cases e : j = i
        · rw [e]
        · exact le_of_lt (lt_of_lt_of_le hlt (ht.le j (by omega)))
      · intro j hj
        exact lt_of_lt_of_le hlt (ht.le j hj)
    · rw [if_neg h]
      have hle : t.1 ≤ v i := not_lt.1 (fun h' => h ((hcmp _ _).2 h'))
      refine ⟨by have := ht.lt; omega, ht.val, ?_, ht.first⟩
      intro j hj
      by_cases e : j = i
      · rw [e]; exact hle
      · exact ht.le j (by omega)

omit [LinearOrder K] hcmp in
theorem loop_fst (n : Nat) (v : Vec K) :
    forRange 1 n (fun ii best => if cmp (v ii) best then v ii else best) (v 0) =
    (forRange 1 n (fun ii (s : K × Nat) => if cmp (v ii) s.1 then (v ii, ii) else s) (v 0, 0)).1 := by
  by_cases hn : 1 ≤ n
  · induction n with
    | zero => omega
    | succ n ih =>
      by_cases h1 : 1 ≤ n
      · rw [forRange_succ 1 n h1, forRange_succ 1 n h1, ih h1]
        split <;> rfl
      · have : n = 0 := by omega
        subst this; rfl
  · rw [forRange_empty _ _ (by omega), forRange_empty _ _ (by omega)]

theorem loopM (R C : Nat) (hR : 1 ≤ R) (hC : 1 ≤ C) (m : Mat K) :
    let s := forN R (fun r s => forN C (fun c (s : K × (Nat × Nat)) => if cmp (m r c) s.1 then (m r c, (r, c)) else s) s)
      (m 0 0, (0, 0))
    FirstMinM R C m s.1 s.2.1 s.2.2 := by
  -- all elements before (r, c) in row-major order have been looked at
  let Inv : Nat → Nat → K × (Nat × Nat) → Prop := fun r c s =>
    s.2.1 < R ∧ s.2.2 < C ∧ s.1 = m s.2.1 s.2.2 ∧
    (∀ r' c', c' < C → (r' < r ∨ (r' = r ∧ c' < c)) → s.1 ≤ m r' c') ∧
    (∀ r' c', c' < C → (r' < s.2.1 ∨ (r' = s.2.1 ∧ c' < s.2.2)) → s.1 < m r' c') ∧
    (s.2 = (0, 0) ∨ s.2.1 < r ∨ (s.2.1 = r ∧ s.2.2 < c))
  have key := forN_inv (fun r s => Inv r 0 s) R
    (fun r s => forN C (fun c (s : K × (Nat × Nat)) => if cmp (m r c) s.1 then (m r c, (r, c)) else s) s)
    (m 0 0, (0, 0)) ⟨show 0 < R by omega, show 0 < C by omega, rfl, fun r' c' _ h => by omega,
      fun r' c' _ h => by
        have h : r' < 0 ∨ (r' = 0 ∧ c' < 0) := h
        omega, Or.inl rfl⟩ (by
      intro r t hr ht
      have := forN_inv (fun c s => Inv r c s) C
        (fun c (s : K × (Nat × Nat)) => if cmp (m r c) s.1 then (m r c, (r, c)) else s) t ht (by
          rintro c s hc ⟨h1, h2, h3, h4, h5, h6⟩
          by_cases h : cmp (m r c) s.1 = true
          · rw [if_pos h]
            have hlt := (hcmp _ _).1 h
            refine ⟨hr, hc, rfl, ?_, ?_, Or.inr (Or.inr ⟨rfl, by dsimp only; omega⟩)⟩
            · intro r' c' hc' hh
              by_cases e : r' = r ∧ c' = c
              · rw [e.1, e.2]
              · exact le_of_lt (lt_of_lt_of_le hlt (h4 r' c' hc' (by omega)))
            · intro r' c' hc' hh
              exact lt_of_lt_of_le hlt (h4 r' c' hc' hh)
          · rw [if_neg h]
            have hle : s.1 ≤ m r c := not_lt.1 (fun h' => h ((hcmp _ _).2 h'))
            refine ⟨h1, h2, h3, ?_, h5, ?_⟩
            · intro r' c' hc' hh
              by_cases e : r' = r ∧ c' = c
              · rw [e.1, e.2]; exact hle
              · exact h4 r' c' hc' (by omega)
            · rcases h6 with h6 | h6 | h6
              · exact Or.inl h6
              · exact Or.inr (Or.inl h6)
              · exact Or.inr (Or.inr ⟨h6.1, by omega⟩))
      obtain ⟨h1, h2, h3, h4, h5, h6⟩ := this
      refine ⟨h1, h2, h3, ?_, h5, ?_⟩
      · intro r' c' hc' hh
        exact h4 r' c' hc' (by omega)
      · rcases h6 with h6 | h6 | h6
        · exact Or.inl h6
        · exact Or.inr (Or.inl (by omega))
        · exact Or.inr (Or.inl (by omega)))
  obtain ⟨h1, h2, h3, h4, h5, h6⟩ := key
  exact ⟨h1, h2, h3, fun r' c' hr hc => h4 r' c' hc (Or.inl hr), h5⟩

omit [LinearOrder K] hcmp in
theorem loopM_fst (R C : Nat) (m : Mat K) :
    forN R (fun r best => forN C (fun c best => if cmp (m r c) best then m r c else best) best) (m 0 0) =
    (forN R (fun r s => forN C (fun c (s : K × (Nat × Nat)) => if cmp (m r c) s.1 then (m r c, (r, c)) else s) s)
      (m 0 0, (0, 0))).1 := by
  induction R with
  | zero => rfl
  | succ R ih =>
    rw [forN_succ, forN_succ, ih]
    generalize forN R _ _ = t
    clear ih
    induction C with
    | zero => rfl
    | succ C ih =>
      rw [forN_succ, forN_succ, ih]
      split <;> rfl

omit [LinearOrder K] hcmp in
/-- one row of the per-row loops equals the vector loop on that row -/
theorem rowLoop (C : Nat) (hC : 1 ≤ C) (f : Nat → K) (r : Nat) (ofIdx : Nat → K) (s : Vec K × Vec K) :
    let res := forRange 1 C (fun c (s : Vec K × Vec K) => if cmp (f c) (s.1 r) then (Vec.set s.1 r (f c), Vec.set s.2 r (ofIdx c)) else s)
      (Vec.set s.1 r (f 0), Vec.set s.2 r (ofIdx 0))
    let e := forRange 1 C (fun ii (s : K × Nat) => if cmp (f ii) s.1 then (f ii, ii) else s) (f 0, 0)
    res.1 r = e.1 ∧ res.2 r = ofIdx e.2 ∧ ∀ j, j ≠ r → res.1 j = s.1 j ∧ res.2 j = s.2 j := by
  induction C with
  | zero => omega
  | succ C ih =>
    by_cases h1 : 1 ≤ C
    · intro res e
      obtain ⟨h2, h3, h4⟩ := ih h1
      have er : res = _ := forRange_succ 1 C h1 _ _
      have ee : e = _ := forRange_succ 1 C h1 _ _
      rw [er, ee]
      rw [h2]
      split
      · refine ⟨Vec.set_self _ _ _, Vec.set_self _ _ _, ?_⟩
        intro j hj
        dsimp only
        rw [Vec.set_ne _ _ _ _ hj, Vec.set_ne _ _ _ _ hj]
        exact h4 j hj
      · exact ⟨h2, h3, h4⟩
    · have : C = 0 := by omega
      subst this
      intro res e
      refine ⟨Vec.set_self _ _ _, Vec.set_self _ _ _, ?_⟩
      intro j hj
      exact ⟨Vec.set_ne _ _ _ _ hj, Vec.set_ne _ _ _ _ hj⟩

omit [LinearOrder K] hcmp in
/-- the per-row loops, for any way `f r c` of reading the matrix -/
theorem perRow (R C : Nat) (hC : 1 ≤ C) (f : Nat → Nat → K) (ofIdx : Nat → K) (u w : Vec K) (r : Nat) (hr : r < R) :
    let res := forN R (fun r s => forRange 1 C (fun c (s : Vec K × Vec K) =>
        if cmp (f r c) (s.1 r) then (Vec.set s.1 r (f r c), Vec.set s.2 r (ofIdx c)) else s)
      (Vec.set s.1 r (f r 0), Vec.set s.2 r (ofIdx 0))) (u, w)
    let e := forRange 1 C (fun ii (s : K × Nat) => if cmp (f r ii) s.1 then (f r ii, ii) else s) (f r 0, 0)
    res.1 r = e.1 ∧ res.2 r = ofIdx e.2 := by
  induction R with
  | zero => omega
  | succ R ih =>
    intro res e
    obtain ⟨h1, h2, h3⟩ := rowLoop cmp C hC (f R) R ofIdx (forN R (fun r s => forRange 1 C (fun c (s : Vec K × Vec K) =>
        if cmp (f r c) (s.1 r) then (Vec.set s.1 r (f r c), Vec.set s.2 r (ofIdx c)) else s)
      (Vec.set s.1 r (f r 0), Vec.set s.2 r (ofIdx 0))) (u, w))
    by_cases e' : r = R
    · subst e'; exact ⟨h1, h2⟩
    · obtain ⟨a, b⟩ := ih (by omega)
      exact ⟨(h3 r e').1.trans a, (h3 r e').2.trans b⟩

omit [LinearOrder K] hcmp in
theorem rowLoop_fst (C : Nat) (f : Nat → K) (r : Nat) (ofIdx : Nat → K) (s : Vec K × Vec K) :
    forRange 1 C (fun c (s : Vec K) => if cmp (f c) (s r) then Vec.set s r (f c) else s) (Vec.set s.1 r (f 0)) =
    (forRange 1 C (fun c (s : Vec K × Vec K) => if cmp (f c) (s.1 r) then (Vec.set s.1 r (f c), Vec.set s.2 r (ofIdx c)) else s)
      (Vec.set s.1 r (f 0), Vec.set s.2 r (ofIdx 0))).1 := by
  by_cases hC : 1 ≤ C
  · induction C with
    | zero => omega
    | succ C ih =>
      by_cases h1 : 1 ≤ C
      · rw [forRange_succ 1 C h1, forRange_succ 1 C h1, ih h1]
        split <;> rfl
      · have : C = 0 := by omega
        subst this; rfl
  · rw [forRange_empty _ _ (by omega), forRange_empty _ _ (by omega)]

omit [LinearOrder K] hcmp in
theorem perRow_fst (R C : Nat) (f : Nat → Nat → K) (ofIdx : Nat → K) (u w : Vec K) :
    forN R (fun r s => forRange 1 C (fun c (s : Vec K) => if cmp (f r c) (s r) then Vec.set s r (f r c) else s)
      (Vec.set s r (f r 0))) u =
    (forN R (fun r s => forRange 1 C (fun c (s : Vec K × Vec K) =>
        if cmp (f r c) (s.1 r) then (Vec.set s.1 r (f r c), Vec.set s.2 r (ofIdx c)) else s)
      (Vec.set s.1 r (f r 0), Vec.set s.2 r (ofIdx 0))) (u, w)).1 := by
  induction R with
  | zero => rfl
  | succ R ih => rw [forN_succ, forN_succ, ih]; exact rowLoop_fst cmp C (f R) R ofIdx _

end generic

section duals
/-- first minima in the reversed order are first maxima -/
theorem firstMax_of_dual {n : Nat} {v : Nat → K} {x : K} {i : Nat} (h : FirstMin (K := Kᵒᵈ) n v x i) :
    FirstMax n v x i := ⟨h.lt, h.val, h.le, h.first⟩
theorem firstMaxM_of_dual {R C : Nat} {m : Nat → Nat → K} {x : K} {r c : Nat}
    (h : FirstMinM (K := Kᵒᵈ) R C m x r c) : FirstMaxM R C m x r c := ⟨h.ltr, h.ltc, h.val, h.le, h.first⟩
theorem less_iff (a b : K) : less a b = true ↔ a < b := by simp [less]
theorem greater_iff' (a b : K) : greater a b = true ↔ b < a := by simp [greater]
theorem greater_iff (a b : Kᵒᵈ) : greater (K := K) a b = true ↔ a < b := greater_iff' (K := K) a b
end duals

variable [Zero K]

/-- **C43** `min_element(v)`, `max_element(v)`: value and first index. -/
theorem c43_element_vector (n : Nat) (hn : 1 ≤ n) (v : Vec K) :
    FirstMin n v (accElemV less n v).1 (accElemV less n v).2 ∧
    FirstMax n v (accElemV greater n v).1 (accElemV greater n v).2 := by
  have h0 : ¬ n = 0 := by omega
  refine ⟨?_, firstMax_of_dual ?_⟩
  · unfold accElemV; rw [if_neg h0]; exact loopV less less_iff n hn v
  · unfold accElemV; rw [if_neg h0]; exact loopV (K := Kᵒᵈ) (greater (K := K)) greater_iff n hn v

/-- **C43** `min_value(v)`, `max_value(v)` are the same values. -/
theorem c43_value_vector (n : Nat) (hn : 1 ≤ n) (v : Vec K) :
    (∃ i, FirstMin n v (accV less n v) i) ∧ (∃ i, FirstMax n v (accV greater n v) i) := by
  have h0 : ¬ n = 0 := by omega
  obtain ⟨h1, h2⟩ := c43_element_vector n hn v
  have e : ∀ cmp : K → K → Bool, accV cmp n v = (accElemV cmp n v).1 := by
    intro cmp; unfold accV accElemV; rw [if_neg h0, if_neg h0, loop_fst]
  exact ⟨⟨(accElemV less n v).2, by rw [e]; exact h1⟩, ⟨(accElemV greater n v).2, by rw [e]; exact h2⟩⟩

/-- **C43** `min_element(m)`, `max_element(m)`: value, row and column of the first occurrence in row-major order. -/
theorem c43_element_matrix (R C : Nat) (hR : 1 ≤ R) (hC : 1 ≤ C) (m : Mat K) :
    FirstMinM R C m (accElemM less R C m).1 (accElemM less R C m).2.1 (accElemM less R C m).2.2 ∧
    FirstMaxM R C m (accElemM greater R C m).1 (accElemM greater R C m).2.1 (accElemM greater R C m).2.2 := by
  have h0 : ¬ (R = 0 ∨ C = 0) := by omega
  refine ⟨?_, firstMaxM_of_dual ?_⟩
  · unfold accElemM; rw [if_neg h0]; exact loopM less less_iff R C hR hC m
  · unfold accElemM; rw [if_neg h0]; exact loopM (K := Kᵒᵈ) (greater (K := K)) greater_iff R C hR hC m

/-- **C43** `min_value(m)`, `max_value(m)`. -/
theorem c43_value_matrix (R C : Nat) (hR : 1 ≤ R) (hC : 1 ≤ C) (m : Mat K) :
    (∃ r c, FirstMinM R C m (accM less R C m) r c) ∧ (∃ r c, FirstMaxM R C m (accM greater R C m) r c) := by
  have h0 : ¬ (R = 0 ∨ C = 0) := by omega
  obtain ⟨h1, h2⟩ := c43_element_matrix R C hR hC m
  refine ⟨⟨(accElemM less R C m).2.1, (accElemM less R C m).2.2, ?_⟩,
    ⟨(accElemM greater R C m).2.1, (accElemM greater R C m).2.2, ?_⟩⟩
  · have : accM less R C m = (accElemM less R C m).1 := by
      unfold accM accElemM; rw [if_neg h0, if_neg h0, loopM_fst]
    rw [this]; exact h1
  · have : accM greater R C m = (accElemM greater R C m).1 := by
      unfold accM accElemM; rw [if_neg h0, if_neg h0, loopM_fst]
    rw [this]; exact h2

omit [Zero K]

/-- **C43** `min/max_element_horizontal(m)` (and `_value_`): for each row the first extremum and its column. -/
theorem c43_horizontal (ofIdx : Nat → K) (R C : Nat) (hC : 1 ≤ C) (m : Mat K) (u w : Vec K) :
    (∃ s, accElemH less ofIdx R C m u w = .ok s ∧ accH less R C m u = .ok s.1 ∧
      ∀ r, r < R → ∃ c, FirstMin C (m r) (s.1 r) c ∧ s.2 r = ofIdx c) ∧
    (∃ s, accElemH greater ofIdx R C m u w = .ok s ∧ accH greater R C m u = .ok s.1 ∧
      ∀ r, r < R → ∃ c, FirstMax C (m r) (s.1 r) c ∧ s.2 r = ofIdx c) := by
  have h0 : ¬ (0 < R ∧ C = 0) := by omega
  refine ⟨⟨_, if_neg h0, ?_, ?_⟩, ⟨_, if_neg h0, ?_, ?_⟩⟩
  · unfold accH; rw [if_neg h0, perRow_fst less R C m ofIdx u w]
  · intro r hr
    obtain ⟨a, b⟩ := perRow less R C hC m ofIdx u w r hr
    exact ⟨_, by rw [a]; exact loopV less less_iff C hC (m r), b⟩
  · unfold accH; rw [if_neg h0, perRow_fst greater R C m ofIdx u w]
  · intro r hr
    obtain ⟨a, b⟩ := perRow greater R C hC m ofIdx u w r hr
    exact ⟨_, firstMax_of_dual (by rw [a]; exact loopV (K := Kᵒᵈ) (greater (K := K)) greater_iff C hC (m r)), b⟩

/-- **C43** `min/max_element_vertical(m)` (and `_value_`): for each column the first extremum and its row. -/
theorem c43_vertical (ofIdx : Nat → K) (R C : Nat) (hR : 1 ≤ R) (m : Mat K) (u w : Vec K) :
    (∃ s, accElemVert less ofIdx R C m u w = .ok s ∧ accVert less R C m u = .ok s.1 ∧
      ∀ c, c < C → ∃ r, FirstMin R (fun i => m i c) (s.1 c) r ∧ s.2 c = ofIdx r) ∧
    (∃ s, accElemVert greater ofIdx R C m u w = .ok s ∧ accVert greater R C m u = .ok s.1 ∧
      ∀ c, c < C → ∃ r, FirstMax R (fun i => m i c) (s.1 c) r ∧ s.2 c = ofIdx r) := by
  have h0 : ¬ (0 < C ∧ R = 0) := by omega
  refine ⟨⟨_, if_neg h0, ?_, ?_⟩, ⟨_, if_neg h0, ?_, ?_⟩⟩
  · unfold accVert; rw [if_neg h0, perRow_fst less C R (fun c r => m r c) ofIdx u w]
  · intro c hc
    obtain ⟨a, b⟩ := perRow less C R hR (fun c r => m r c) ofIdx u w c hc
    exact ⟨_, by rw [a]; exact loopV less less_iff R hR (fun i => m i c), b⟩
  · unfold accVert; rw [if_neg h0, perRow_fst greater C R (fun c r => m r c) ofIdx u w]
  · intro c hc
    obtain ⟨a, b⟩ := perRow greater C R hR (fun c r => m r c) ofIdx u w c hc
    exact ⟨_, firstMax_of_dual (by rw [a]; exact loopV (K := Kᵒᵈ) (greater (K := K)) greater_iff R hR (fun i => m i c)), b⟩

/-- **C43** the guard for empty matrices in the per-row/per-column forms does not return: a matrix with rows but no columns
(columns but no rows) is read out of bounds. -/
theorem c43_empty_lines_ub (cmp : K → K → Bool) (ofIdx : Nat → K) (k : Nat) (hk : 1 ≤ k) (m : Mat K) (u w : Vec K) :
    accElemH cmp ofIdx k 0 m u w = .ub ∧ accH cmp k 0 m u = .ub ∧
    accElemVert cmp ofIdx 0 k m u w = .ub ∧ accVert cmp 0 k m u = .ub :=
  ⟨if_pos ⟨hk, rfl⟩, if_pos ⟨hk, rfl⟩, if_pos ⟨hk, rfl⟩, if_pos ⟨hk, rfl⟩⟩

/-- a concrete use: the first of the two minima of `(3,1,2,1)` -/
example : accElemV less 4 (fun i => if i = 0 then 3 else if i = 2 then 2 else (1:Nat)) = (1, 1) := by decide

end TooN.Helpers
