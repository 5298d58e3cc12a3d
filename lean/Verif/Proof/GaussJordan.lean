import Verif.Proof.Elim
/-! Proof of `gauss_jordan`. -/
set_option linter.unusedSectionVars false
namespace TooN.Elim
open Finset
variable {K : Type _} [Field K] [LinearOrder K] [IsStrictOrderedRing K]

/-- the matrix after the pivot swap -/
def gjSwapped (R C col : Nat) (m : Mat K) : Mat K :=
  if col ≠ pivotRow R col m then swapRows 0 C col (pivotRow R col m) m else m

theorem gjSwapped_apply (R C col : Nat) (m : Mat K) (r c : Nat) :
    gjSwapped R C col m r c = if c < C then
      (if r = pivotRow R col m then m col c else if r = col then m (pivotRow R col m) c else m r c)
      else m r c := by
  unfold gjSwapped
  by_cases h : col ≠ pivotRow R col m
  · rw [if_pos h, swapRows_apply]; simp
  · rw [if_neg h]
    push Not at h
    by_cases e : r = pivotRow R col m
    · rw [if_pos e, e, ← h]; simp
    · rw [if_neg e, if_neg (show ¬ r = col by rw [h]; exact e)]; simp

/-- pointwise effect of eliminating row by row -/
def gjElim (col C k : Nat) (m : Mat K) : Mat K := fun r c =>
  if r < k ∧ r ≠ col then
    (if c = col then 0 else if col < c ∧ c < C then m r c - m col c * (m r col / m col col) else m r c)
  else m r c

theorem gjRows (R C col : Nat) (m : Mat K) :
    (m col col ≠ 0 ∨ ∀ row, row < R → row = col) →
    forNM R (fun row m =>
      if row ≠ col then
        if m col col = 0 then none
        else
          let multiple := m row col / m col col
          let m := Mat.set m row col 0
          some (forRange (col+1) C (fun c m => Mat.set m row c (m row c - m col c * multiple)) m)
      else some m) m = some (gjElim col C R m) := by
  intro h
  have key : ∀ k, k ≤ R → forNM k (fun row m =>
      if row ≠ col then
        if m col col = 0 then none
        else
          let multiple := m row col / m col col
          let m := Mat.set m row col 0
          some (forRange (col+1) C (fun c m => Mat.set m row c (m row c - m col c * multiple)) m)
      else some m) m = some (gjElim col C k m) := by
    intro k
    induction k with
    | zero => intro _; rw [forNM_zero]; congr 1
    | succ k ih =>
      intro hk
      rw [forNM_succ, ih (by omega), Option.bind_some]
      by_cases e : k = col
      · rw [if_neg (by simpa using e)]
        congr 1; funext r c
        unfold gjElim
        have : (r < k ∧ r ≠ col) ↔ (r < k + 1 ∧ r ≠ col) := by omega
        simp only [this]
      · have hd : m col col ≠ 0 := by
          rcases h with h | h
          · exact h
          · exact absurd (h k (by omega)) e
        have hpc : ∀ c, gjElim col C k m col c = m col c := by
          intro c; unfold gjElim; rw [if_neg (by omega)]
        have hk' : ∀ c, gjElim col C k m k c = m k c := by
          intro c; unfold gjElim; rw [if_neg (by omega)]
        rw [if_pos e, if_neg (by rw [hpc]; exact hd)]
        simp only
        congr 1; funext r c
        rw [forRange_row (col+1) C k (fun c f => f k - f col * (gjElim col C k m k col / gjElim col C k m col col))]
        simp only [Mat.set, hpc, hk']
        by_cases hr : r = k
        · subst hr
          have h1 : (gjElim col C (r+1) m) r c = (if c = col then 0 else if col < c ∧ c < C then
            m r c - m col c * (m r col / m col col) else m r c) := by
            unfold gjElim; rw [if_pos (by omega)]
          rw [h1]
          by_cases hc : c = col
          · rw [if_neg (by omega), if_pos hc, if_pos ⟨rfl, hc⟩]
          · rw [if_neg hc]
            by_cases hc2 : col < c ∧ c < C
            · rw [if_pos (by omega), if_pos hc2, if_neg (by tauto), if_neg (by tauto)]
            · rw [if_neg (by omega), if_neg hc2, if_neg (by tauto), hk']
        · rw [if_neg (by tauto), if_neg (by tauto)]
          unfold gjElim
          have : (r < k ∧ r ≠ col) ↔ (r < k + 1 ∧ r ≠ col) := by omega
          simp only [this]
  exact key R (le_refl _)

theorem gjRows_none (R C col : Nat) (m : Mat K) (h0 : m col col = 0) (row : Nat) (hrow : row < R)
    (hne : row ≠ col) :
    forNM R (fun row m =>
      if row ≠ col then
        if m col col = 0 then none
        else
          let multiple := m row col / m col col
          let m := Mat.set m row col 0
          some (forRange (col+1) C (fun c m => Mat.set m row c (m row c - m col c * multiple)) m)
      else some m) m = none := by
  -- the first non-pivot row already divides by zero: whatever succeeded before left `m` unchanged
  have key : ∀ k, k ≤ R → forNM k (fun row m =>
      if row ≠ col then
        if m col col = 0 then none
        else
          let multiple := m row col / m col col
          let m := Mat.set m row col 0
          some (forRange (col+1) C (fun c m => Mat.set m row c (m row c - m col c * multiple)) m)
      else some m) m = if (∃ r, r < k ∧ r ≠ col) then none else some m := by
    intro k
    induction k with
    | zero => intro _; simp
    | succ k ih =>
      intro hk
      rw [forNM_succ, ih (by omega)]
      by_cases h : ∃ r, r < k ∧ r ≠ col
      · rw [if_pos h, Option.bind_none, if_pos]
        obtain ⟨r, h1, h2⟩ := h; exact ⟨r, by omega, h2⟩
      · rw [if_neg h, Option.bind_some]
        by_cases e : k = col
        · rw [if_neg (by simpa using e), if_neg]
          rintro ⟨r, h1, h2⟩
          exact h ⟨r, by omega, h2⟩
        · rw [if_pos e, if_pos h0, if_pos ⟨k, by omega, e⟩]
  rw [key R (le_refl _), if_pos ⟨row, hrow, hne⟩]

theorem gjColumn_eq (R C col : Nat) (m : Mat K) :
    gjColumn R C col m = forNM R (fun row m =>
      if row ≠ col then
        if m col col = 0 then none
        else
          let multiple := m row col / m col col
          let m := Mat.set m row col 0
          some (forRange (col+1) C (fun c m => Mat.set m row c (m row c - m col c * multiple)) m)
      else some m) (gjSwapped R C col m) := rfl

theorem gjColumn_some (R C col : Nat) (m m' : Mat K) (h : gjColumn R C col m = some m') :
    (gjSwapped R C col m col col ≠ 0 ∨ ∀ row, row < R → row = col) ∧
    m' = gjElim col C R (gjSwapped R C col m) := by
  rw [gjColumn_eq] at h
  by_cases hd : gjSwapped R C col m col col ≠ 0 ∨ ∀ row, row < R → row = col
  · rw [gjRows R C col _ hd] at h
    exact ⟨hd, (Option.some.inj h).symm⟩
  · push Not at hd
    obtain ⟨h0, row, hr, hne⟩ := hd
    rw [gjRows_none R C col _ h0 row hr hne] at h
    cases h

/-- invariant: the first `col` columns are diagonal -/
def GJInv (R col : Nat) (m : Mat K) : Prop := ∀ r c, c < col → r < R → r ≠ c → m r c = 0

/-- one column step keeps the invariant and the kernel -/
theorem gjStep_inv (R C col : Nat) (hcol : col < R) (hRC : R ≤ C) (m m' : Mat K) (hinv : GJInv R col m)
    (h : gjColumn R C col m = some m') :
    GJInv R (col+1) m' ∧ (∀ w, Ker R C m' w ↔ Ker R C m w) ∧
    (∀ r c, ¬ (r < R ∧ c < C) → m' r c = m r c) ∧
    (∀ c, c < col → m' c c = m c c) ∧ m' col col = gjSwapped R C col m col col := by
  obtain ⟨hd, rfl⟩ := gjColumn_some R C col m m' h
  obtain ⟨p1, p2, p3⟩ := pivotRow_spec R col hcol m
  have hs := gjSwapped_apply R C col m
  -- the swapped matrix still has the invariant
  have hinv1 : GJInv R col (gjSwapped R C col m) := by
    intro r c hc hr hne
    rw [hs, if_pos (by omega)]
    split_ifs with e1 e2
    · exact hinv col c hc hcol (by omega)
    · exact hinv _ c hc p2 (by omega)
    · exact hinv r c hc hr hne
  have hk1 : ∀ w, Ker R C (gjSwapped R C col m) w ↔ Ker R C m w := by
    intro w
    exact Ker_swap w col (pivotRow R col m) hcol p2 (fun r c _ hc => by rw [hs, if_pos hc])
  refine ⟨?_, ?_, ?_, ?_, ?_⟩
  · intro r c hc hr hne
    unfold gjElim
    by_cases e : r = col
    · rw [if_neg (by omega)]; exact hinv1 r c (by omega) hr hne
    · rw [if_pos ⟨hr, e⟩]
      by_cases e2 : c = col
      · rw [if_pos e2]
      · rw [if_neg e2, if_neg (by omega)]; exact hinv1 r c (by omega) hr hne
  · intro w
    rw [← hk1 w]
    rcases hd with hd | hd
    · refine Ker_elim w col hcol (fun r => if r = col then 0 else
        gjSwapped R C col m r col / gjSwapped R C col m col col) (by simp) ?_
      intro r c hr hc
      unfold gjElim
      by_cases e : r = col
      · rw [if_neg (by omega), if_pos e]; ring
      · rw [if_pos ⟨hr, e⟩, if_neg e]
        by_cases e2 : c = col
        · subst e2; rw [if_pos rfl]; field_simp; ring
        · rw [if_neg e2]
          by_cases e3 : col < c ∧ c < C
          · rw [if_pos e3]; ring
          · rw [if_neg e3, hinv1 col c (by omega) hcol (by omega)]; ring
    · apply Ker_congr
      intro r c hr hc
      unfold gjElim
      rw [if_neg (by have := hd r hr; tauto)]
  · intro r c hrc
    unfold gjElim
    have hsw : gjSwapped R C col m r c = m r c := by
      rw [hs]
      by_cases hc : c < C
      · rw [if_pos hc, if_neg (by omega), if_neg (by omega)]
      · rw [if_neg hc]
    by_cases e : r < R ∧ r ≠ col
    · rw [if_pos e, if_neg (by omega), if_neg (by omega), hsw]
    · rw [if_neg e, hsw]
  · intro c hc
    unfold gjElim
    rw [if_pos (by omega), if_neg (by omega), if_neg (by omega), hs, if_pos (by omega),
      if_neg (by omega), if_neg (by omega)]
  · unfold gjElim
    rw [if_neg (by simp)]

/-- with a trivial kernel the pivot is nonzero -/
theorem gj_pivot_ne (R C col : Nat) (hcol : col < R) (hRC : R ≤ C) (m : Mat K) (hinv : GJInv R col m)
    (hdiag : ∀ c, c < col → m c c ≠ 0) (ht : Trivial R m) : gjSwapped R C col m col col ≠ 0 := by
  intro h0
  obtain ⟨p1, p2, p3⟩ := pivotRow_spec R col hcol m
  rw [gjSwapped_apply, if_pos (by omega)] at h0
  have hp0 : m (pivotRow R col m) col = 0 := by
    by_cases e : col = pivotRow R col m
    · rw [if_pos e] at h0; rw [← e]; exact h0
    · rw [if_neg e, if_pos rfl] at h0; exact h0
  refine not_trivial_of_zero_column R col hcol m hinv hdiag ?_ ht
  intro r h1 h2
  have := p3 r h1 h2
  rw [hp0, abs_zero] at this
  exact abs_eq_zero.1 (le_antisymm this (abs_nonneg _))

/-- the column loop succeeds on an invertible left block -/
theorem gjColumns_total (R C : Nat) (hRC : R ≤ C) (m : Mat K) (ht : Trivial R m) :
    ∃ m', forNM R (gjColumn R C) m = some m' ∧ GJInv R R m' ∧ (∀ w, Ker R C m' w ↔ Ker R C m w) ∧
      (∀ r c, ¬ (r < R ∧ c < C) → m' r c = m r c) ∧ (∀ c, c < R → m' c c ≠ 0) := by
  have := forNM_total (fun col (m' : Mat K) => GJInv R col m' ∧ (∀ w, Ker R C m' w ↔ Ker R C m w) ∧
      (∀ r c, ¬ (r < R ∧ c < C) → m' r c = m r c) ∧ (∀ c, c < col → m' c c ≠ 0)) R (gjColumn R C) m
    ⟨fun r c hc => by omega, fun w => Iff.rfl, fun _ _ _ => rfl, fun c hc => by omega⟩
    (by
      intro col t hcol ⟨h1, h2, h3, h4⟩
      have htt : Trivial R t := trivial_of_ker hRC h2 ht
      have hp := gj_pivot_ne R C col hcol hRC t h1 h4 htt
      refine ⟨gjElim col C R (gjSwapped R C col t), by rw [gjColumn_eq, gjRows R C col _ (Or.inl hp)], ?_⟩
      obtain ⟨g1, g2, g3, g4, g5⟩ := gjStep_inv R C col hcol hRC t _ h1
        (by rw [gjColumn_eq, gjRows R C col _ (Or.inl hp)])
      refine ⟨g1, fun w => (g2 w).trans (h2 w), fun r c h => (g3 r c h).trans (h3 r c h), ?_⟩
      intro c hc
      by_cases e : c = col
      · subst e; rw [g5]; exact hp
      · rw [g4 c (by omega)]; exact h4 c (by omega))
  obtain ⟨m', hm, h1, h2, h3, h4⟩ := this
  exact ⟨m', hm, h1, h2, h3, h4⟩

/-- partial correctness of the column loop -/
theorem gjColumns_partial (R C : Nat) (hRC : R ≤ C) (m m' : Mat K)
    (h : forNM R (gjColumn R C) m = some m') :
    GJInv R R m' ∧ (∀ w, Ker R C m' w ↔ Ker R C m w) := by
  refine forNM_inv (fun col (m' : Mat K) => GJInv R col m' ∧ (∀ w, Ker R C m' w ↔ Ker R C m w)) R
    (gjColumn R C) m m' ⟨fun r c hc => by omega, fun w => Iff.rfl⟩ ?_ h
  intro col t t' hcol ⟨h1, h2⟩ ht
  obtain ⟨g1, g2, -, -, -⟩ := gjStep_inv R C col hcol hRC t t' h1 ht
  exact ⟨g1, fun w => (g2 w).trans (h2 w)⟩

/-- pointwise effect of the final pass on rows `< k` -/
def gjScaled (R C k : Nat) (m : Mat K) : Mat K := fun r c =>
  if r < k then (if c = r then 1 else if R ≤ c ∧ c < C then m r c * (1 / m r r) else m r c) else m r c

theorem gjFinal_some (R C : Nat) (m : Mat K) (k : Nat) (hk : k ≤ R) (h : ∀ r, r < k → m r r ≠ 0) :
    forNM k (gjFinal R C) m = some (gjScaled R C k m) := by
  induction k with
  | zero => rw [forNM_zero]; congr 1
  | succ k ih =>
    rw [forNM_succ, ih (by omega) (fun r hr => h r (by omega)), Option.bind_some]
    have hkk : ∀ c, gjScaled R C k m k c = m k c := by
      intro c; unfold gjScaled; rw [if_neg (by omega)]
    rw [gjFinal, if_neg (by rw [hkk]; exact h k (by omega))]
    simp only
    congr 1; funext r c
    rw [forRange_row R C k (fun c f => f k * (1 / gjScaled R C k m k k))]
    simp only [Mat.set, hkk]
    by_cases hr : r = k
    · subst hr
      have h1 : gjScaled R C (r+1) m r c = (if c = r then 1 else if R ≤ c ∧ c < C then m r c * (1 / m r r) else m r c) := by
        unfold gjScaled; rw [if_pos (by omega)]
      rw [h1]
      by_cases hc : c = r
      · subst hc; rw [if_neg (by omega), if_pos rfl, if_pos ⟨rfl, rfl⟩]
      · rw [if_neg hc]
        by_cases hc2 : R ≤ c ∧ c < C
        · rw [if_pos (by omega), if_pos hc2, if_neg (by tauto)]
        · rw [if_neg (by omega), if_neg hc2, if_neg (by tauto), hkk]
    · rw [if_neg (by tauto), if_neg (by tauto)]
      unfold gjScaled
      have : (r < k) ↔ (r < k + 1) := by omega
      simp only [this]

theorem gjFinal_diag_ne (R C : Nat) (m m' : Mat K) (k : Nat) (hk : k ≤ R)
    (h : forNM k (gjFinal R C) m = some m') : ∀ r, r < k → m r r ≠ 0 := by
  induction k generalizing m' with
  | zero => intro r hr; omega
  | succ k ih =>
    rw [forNM_succ] at h
    cases hq : forNM k (gjFinal R C) m with
    | none => rw [hq] at h; cases h
    | some t =>
      have ht := ih t (by omega) hq
      intro r hr
      by_cases e : r = k
      · subst e
        rw [hq, Option.bind_some] at h
        have : t = gjScaled R C r m := by
          have := gjFinal_some R C m r (by omega) ht
          rw [hq] at this; exact Option.some.inj this
        rw [gjFinal] at h
        by_contra h0
        have h0' : t r r = 0 := by rw [this, gjScaled, if_neg (by omega)]; exact h0
        rw [if_pos h0'] at h; cases h
      · exact ht r (by omega)

theorem gjScaled_spec (R C : Nat) (hRC : R ≤ C) (m : Mat K) (hinv : GJInv R R m)
    (hd : ∀ r, r < R → m r r ≠ 0) :
    (∀ r c, r < R → c < R → gjScaled R C R m r c = if r = c then 1 else 0) ∧
    (∀ w, Ker R C (gjScaled R C R m) w ↔ Ker R C m w) ∧
    (∀ r c, ¬ (r < R ∧ c < C) → gjScaled R C R m r c = m r c) := by
  have h1 : ∀ r c, r < R → c < R → gjScaled R C R m r c = if r = c then 1 else 0 := by
    intro r c hr hc
    unfold gjScaled
    rw [if_pos hr]
    by_cases e : c = r
    · subst e; simp
    · rw [if_neg e, if_neg (by omega), if_neg (Ne.symm e)]; exact hinv r c hc hr (Ne.symm e)
  refine ⟨h1, ?_, ?_⟩
  · intro w
    refine Ker_scale w (fun r => 1 / m r r) (fun r hr => one_div_ne_zero (hd r hr)) ?_
    intro r c hr hc
    by_cases hcR : c < R
    · rw [h1 r c hr hcR]
      by_cases e : r = c
      · subst e; rw [if_pos rfl, one_div, inv_mul_cancel₀ (hd r hr)]
      · rw [if_neg e, hinv r c hcR hr e]; ring
    · unfold gjScaled
      rw [if_pos hr, if_neg (by omega), if_pos (by omega)]; ring
  · intro r c hrc
    unfold gjScaled
    by_cases hr : r < R
    · rw [if_pos hr, if_neg (by omega), if_neg (by omega)]
    · rw [if_neg hr]

omit [LinearOrder K] [IsStrictOrderedRing K] in
/-- reading off the solution from the reduced matrix -/
theorem solve_of_ker (n C : Nat) (m m' : Mat K) (hk : ∀ w, Ker n C m' w ↔ Ker n C m w)
    (hid : ∀ r c, r < n → c < n → m' r c = if r = c then 1 else 0) (j : Nat) (hj : n ≤ j) (hjC : j < C)
    (r : Nat) (hr : r < n) : ∑ c ∈ range n, m r c * m' c j = m r j := by
  have h1 : Ker n C m' (extj n j (fun c => m' c j)) := by
    intro r hr
    rw [sum_extj n j C hj hjC]
    have : ∀ c ∈ range n, m' r c * m' c j = if c = r then m' c j else 0 := by
      intro c hc
      rw [hid r c hr (mem_range.1 hc)]
      by_cases e : r = c
      · subst e; simp
      · rw [if_neg e, if_neg (Ne.symm e)]; ring
    rw [sum_congr rfl this, sum_ite_eq' (range n) r, if_pos (mem_range.2 hr), sub_self]
  have := (hk _).1 h1 r hr
  rw [sum_extj n j C hj hjC, sub_eq_zero] at this
  exact this

omit [LinearOrder K] [IsStrictOrderedRing K] in
theorem trivial_of_id (n : Nat) (m : Mat K) (hid : ∀ r c, r < n → c < n → m r c = if r = c then 1 else 0) :
    Trivial n m := by
  intro x hx c hc
  have := hx c hc
  have e : ∀ k ∈ range n, m c k * x k = if k = c then x k else 0 := by
    intro k hk
    rw [hid c k hc (mem_range.1 hk)]
    by_cases e : c = k
    · subst e; simp
    · rw [if_neg e, if_neg (Ne.symm e)]; ring
  rwa [sum_congr rfl e, sum_ite_eq' (range n) c, if_pos (mem_range.2 hc)] at this

end TooN.Elim
