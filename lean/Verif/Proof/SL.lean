import Verif.Model.SL
import Mathlib.Tactic.Ring
import Mathlib.Tactic.Linarith
import Mathlib.Algebra.BigOperators.Ring.Finset
import Mathlib.Algebra.BigOperators.Intervals
/-!
# Index arithmetic of sl.h
-/
namespace TooN.SL

/-- number of pairs `(r', c)` with `r' < r`, `r' < c < N` -/
def off (N : Nat) : Nat → Nat
  | 0 => 0
  | r + 1 => off N r + (N - 1 - r)

/-- position of the pair `r < c` in row-major order -/
def pairIdx (N r c : Nat) : Nat := off N r + (c - r - 1)

theorem off_closed (N r : Nat) (h : r ≤ N) : 2 * off N r + r * r + r = 2 * N * r := by
  induction r with
  | zero => simp [off]
  | succ r ih =>
    have h1 := ih (by omega)
    obtain ⟨d, rfl⟩ : ∃ d, N = r + 1 + d := ⟨N - (r + 1), by omega⟩
    have e : r + 1 + d - 1 - r = d := by omega
    rw [off, e]
    nlinarith [h1]

theorem two_off (N : Nat) : 2 * off N N + N = N * N := by
  have := off_closed N N le_rfl
  nlinarith

theorem countSymm_eq (N : Nat) : countSymm N = off N N := by
  have := two_off N
  unfold countSymm dim diagLimit
  have : N * N - 1 - (N - 1) = 2 * off N N := by
    rcases Nat.eq_zero_or_pos N with h | h
    · subst h; simp at *; omega
    · omega
  rw [this]; omega

theorem dim_eq (N : Nat) (h : 0 < N) : dim N = (N - 1) + off N N + off N N := by
  have := two_off N
  unfold dim
  have : 0 < N * N := Nat.mul_pos h h
  omega

theorem symmLimit_eq (N : Nat) : symmLimit N = (N - 1) + off N N := by
  unfold symmLimit; rw [countSymm_eq, diagLimit, Nat.add_comm]

theorem off_mono (N : Nat) {r s : Nat} (h : r ≤ s) : off N r ≤ off N s := by
  induction h with
  | refl => rfl
  | step _ ih => exact ih.trans (Nat.le_add_right _ _)

theorem off_last (N : Nat) (h : 0 < N) : off N (N - 1) = off N N := by
  obtain ⟨k, rfl⟩ : ∃ k, N = k + 1 := ⟨N - 1, by omega⟩
  simp [off]

theorem pairIdx_lt_off (N r c : Nat) (h1 : r < c) (h2 : c < N) : pairIdx N r c < off N (r + 1) := by
  unfold pairIdx; rw [off]; omega

theorem pairIdx_lt (N r c : Nat) (h1 : r < c) (h2 : c < N) : pairIdx N r c < off N N :=
  (pairIdx_lt_off N r c h1 h2).trans_le (off_mono N (by omega))

theorem pairIdx_inj (N r c r' c' : Nat) (h1 : r < c) (h2 : c < N) (h1' : r' < c') (h2' : c' < N)
    (h : pairIdx N r c = pairIdx N r' c') : r = r' ∧ c = c' := by
  have a := pairIdx_lt_off N r c h1 h2
  have b := pairIdx_lt_off N r' c' h1' h2'
  have hr : r = r' := by
    by_contra hne
    rcases Nat.lt_or_gt_of_ne hne with hlt | hlt
    · have := off_mono N (show r + 1 ≤ r' from hlt)
      unfold pairIdx at *; omega
    · have := off_mono N (show r' + 1 ≤ r from hlt)
      unfold pairIdx at *; omega
  subst hr
  unfold pairIdx at h
  exact ⟨rfl, by omega⟩

/-- the `while` loop ends and finds the pair with the given position -/
theorem decode_spec (N : Nat) (fuel row col : Nat) (hN : row < N) (hf : N ≤ fuel + row) (hc : 0 < col)
    (hk : off N row + col ≤ off N N) :
    ∃ r c : Nat, decode N fuel row col = some ((r : Int), (c : Int)) ∧ r < c ∧ c < N ∧
      pairIdx N r c + 1 = off N row + col := by
  induction fuel generalizing row col with
  | zero => omega
  | succ f ih =>
    unfold decode
    by_cases h : (col : Int) > (N : Int) - row - 1
    · rw [if_pos h]
      have hr : row + 1 < N := by
        by_contra hn
        have : row = N - 1 := by omega
        subst this
        rw [off_last N (by omega)] at hk; omega
      have e : (col : Int) - ((N : Int) - row - 1) = ((col - (N - 1 - row) : Nat) : Int) := by omega
      have e2 : (row : Int) + 1 = ((row + 1 : Nat) : Int) := by omega
      rw [e, e2]
      obtain ⟨r, c, h1, h2, h3, h4⟩ := ih (row + 1) (col - (N - 1 - row)) hr (by omega) (by omega)
        (by rw [off]; omega)
      exact ⟨r, c, h1, h2, h3, by rw [h4, off]; omega⟩
    · rw [if_neg h]
      refine ⟨row, col + row, by push_cast; rfl, by omega, by omega, ?_⟩
      unfold pairIdx; omega

/-- the entries of the generators -/
noncomputable def gval (N i r c : Nat) : ℝ :=
  if r = c then (if i = r ∧ r + 1 < N then 1 else 0) - (if i + 1 = r then 1 else 0)
  else (if i = N - 1 + pairIdx N (min r c) (max r c) then 1 else 0)
    + (if i = N - 1 + off N N + pairIdx N (min r c) (max r c) then (if r < c then -1 else 1) else 0)

theorem pairIdx_minmax (N r c r' c' : Nat) (h1 : r < c) (h2 : c < N) (hr : r' < N) (hc : c' < N) (hne : r' ≠ c')
    (h : pairIdx N r c = pairIdx N (min r' c') (max r' c')) : (r' = r ∧ c' = c) ∨ (r' = c ∧ c' = r) := by
  rcases Nat.lt_or_gt_of_ne hne with hlt | hlt
  · rw [min_eq_left hlt.le, max_eq_right hlt.le] at h
    obtain ⟨a, b⟩ := pairIdx_inj N r c r' c' h1 h2 hlt hc h
    left; omega
  · rw [min_eq_right hlt.le, max_eq_left hlt.le] at h
    obtain ⟨a, b⟩ := pairIdx_inj N r c c' r' h1 h2 hlt hr h
    right; omega

theorem pairIdx_minmax_lt (N r' c' : Nat) (hr : r' < N) (hc : c' < N) (hne : r' ≠ c') :
    pairIdx N (min r' c') (max r' c') < off N N := by
  rcases Nat.lt_or_gt_of_ne hne with hlt | hlt
  · rw [min_eq_left hlt.le, max_eq_right hlt.le]; exact pairIdx_lt N _ _ hlt hc
  · rw [min_eq_right hlt.le, max_eq_left hlt.le]; exact pairIdx_lt N _ _ hlt hr

theorem generator_spec (fuel N i : Nat) (hf : N ≤ fuel) (hi : i < dim N) :
    ∃ g, generator fuel N i = .ok g ∧ (∀ r c, r < N → c < N → g r c = gval N i r c) ∧
      (i < N - 1 ∨ ∃ r c : Nat, r < c ∧ c < N ∧
        ((i < symmLimit N ∧ i = N - 1 + pairIdx N r c ∧
            g = Mat.set (Mat.set (fun _ _ => 0) c r 1) r c 1) ∨
         (symmLimit N ≤ i ∧ i = N - 1 + off N N + pairIdx N r c ∧
            g = Mat.set (Mat.set (fun _ _ => 0) r c (-1)) c r 1))) := by
  have hN : 0 < N := by
    rcases Nat.eq_zero_or_pos N with h | h
    · subst h; simp [dim] at hi
    · exact h
  have hd := dim_eq N hN
  have hs := symmLimit_eq N
  unfold generator
  rw [if_pos ⟨by omega, by exact_mod_cast hi⟩]
  by_cases h1 : i < N - 1
  · rw [if_pos (show (i : Int) < (diagLimit N : Int) by unfold diagLimit; omega)]
    refine ⟨_, rfl, ?_, Or.inl h1⟩
    intro r c hr hc
    simp only [Int.toNat_natCast, gval, Mat.set]
    have hp : N - 1 ≤ N - 1 + pairIdx N (min r c) (max r c) := by omega
    by_cases hrc : r = c
    · subst hrc
      simp only [and_self, if_true]
      by_cases ha : r = i + 1
      · subst ha
        simp
      · by_cases hb : r = i
        · subst hb; simp; omega
        · have : ¬ (i = r) := fun h => hb h.symm
          have : ¬ (i + 1 = r) := fun h => ha h.symm
          simp [*]
    · have a1 : ¬ (r = i + 1 ∧ c = i + 1) := by omega
      have a2 : ¬ (r = i ∧ c = i) := by omega
      have a3 : ¬ (i = N - 1 + pairIdx N (min r c) (max r c)) := by omega
      have a4 : ¬ (i = N - 1 + off N N + pairIdx N (min r c) (max r c)) := by omega
      simp [a1, a2, a3, a4, hrc]
  · rw [if_neg (show ¬ (i : Int) < (diagLimit N : Int) by unfold diagLimit; omega)]
    by_cases h2 : i < symmLimit N
    · rw [if_pos (show (i : Int) < (symmLimit N : Int) by omega)]
      have e : (i : Int) - (diagLimit N : Int) + 1 = ((i - (N - 1) + 1 : Nat) : Int) := by unfold diagLimit; omega
      obtain ⟨r, c, h3, h4, h5, h6⟩ := decode_spec N fuel 0 (i - (N - 1) + 1) hN (by omega) (by omega)
        (by simp [off]; omega)
      have h3' : decode (N : Int) fuel 0 ((i - (N - 1) + 1 : Nat) : Int) = some ((r : Int), (c : Int)) := by
        simpa using h3
      rw [e, h3']
      simp only
      rw [if_pos ⟨by omega, by omega, by omega, by omega⟩]
      simp only [off] at h6
      refine ⟨_, rfl, ?_, Or.inr ⟨r, c, h4, h5, Or.inl ⟨h2, by omega, by simp⟩⟩⟩
      intro r' c' hr hc
      simp only [Int.toNat_natCast, gval, Mat.set]
      by_cases hrc : r' = c'
      · subst hrc
        have a1 : ¬ (r' = r ∧ r' = c) := by omega
        have a2 : ¬ (r' = c ∧ r' = r) := by omega
        have a3 : ¬ (i = r' ∧ r' + 1 < N) := by omega
        have a4 : ¬ (i + 1 = r') := by omega
        simp [a1, a2, a3, a4]
      · have hlt := pairIdx_minmax_lt N r' c' hr hc hrc
        have a4 : ¬ (i = N - 1 + off N N + pairIdx N (min r' c') (max r' c')) := by omega
        rw [if_neg hrc, if_neg a4, add_zero]
        by_cases hA : r' = r ∧ c' = c
        · rw [if_pos hA, if_pos]
          obtain ⟨rfl, rfl⟩ := hA
          rw [min_eq_left h4.le, max_eq_right h4.le]; omega
        · rw [if_neg hA]
          by_cases hB : r' = c ∧ c' = r
          · rw [if_pos hB, if_pos]
            obtain ⟨rfl, rfl⟩ := hB
            rw [min_eq_right h4.le, max_eq_left h4.le]; omega
          · rw [if_neg hB, if_neg]
            intro hh
            rcases pairIdx_minmax N r c r' c' h4 h5 hr hc hrc (by omega) with h | h
            · exact hA h
            · exact hB h
    · rw [if_neg (show ¬ (i : Int) < (symmLimit N : Int) by omega)]
      have e : (i : Int) - (symmLimit N : Int) + 1 = ((i - symmLimit N + 1 : Nat) : Int) := by omega
      obtain ⟨r, c, h3, h4, h5, h6⟩ := decode_spec N fuel 0 (i - symmLimit N + 1) hN (by omega) (by omega)
        (by simp [off]; omega)
      have h3' : decode (N : Int) fuel 0 ((i - symmLimit N + 1 : Nat) : Int) = some ((r : Int), (c : Int)) := by
        simpa using h3
      rw [e, h3']
      simp only
      rw [if_pos ⟨by omega, by omega, by omega, by omega⟩]
      simp only [off] at h6
      refine ⟨_, rfl, ?_, Or.inr ⟨r, c, h4, h5, Or.inr ⟨by omega, by omega, by simp⟩⟩⟩
      intro r' c' hr hc
      simp only [Int.toNat_natCast, gval, Mat.set]
      by_cases hrc : r' = c'
      · subst hrc
        have a1 : ¬ (r' = r ∧ r' = c) := by omega
        have a2 : ¬ (r' = c ∧ r' = r) := by omega
        have a3 : ¬ (i = r' ∧ r' + 1 < N) := by omega
        have a4 : ¬ (i + 1 = r') := by omega
        simp [a1, a2, a3, a4]
      · have hlt := pairIdx_minmax_lt N r' c' hr hc hrc
        have a4 : ¬ (i = N - 1 + pairIdx N (min r' c') (max r' c')) := by omega
        rw [if_neg hrc, if_neg a4, zero_add]
        by_cases hB : r' = c ∧ c' = r
        · rw [if_pos hB, if_pos, if_neg]
          · omega
          · obtain ⟨rfl, rfl⟩ := hB
            rw [min_eq_right h4.le, max_eq_left h4.le]; omega
        · rw [if_neg hB]
          by_cases hA : r' = r ∧ c' = c
          · rw [if_pos hA, if_pos, if_pos]
            · omega
            · obtain ⟨rfl, rfl⟩ := hA
              rw [min_eq_left h4.le, max_eq_right h4.le]; omega
          · rw [if_neg hA, if_neg]
            intro hh
            rcases pairIdx_minmax N r c r' c' h4 h5 hr hc hrc (by omega) with h | h
            · exact hA h
            · exact hB h

/-- entries of a combination of generators -/
theorem sum_gval (N : Nat) (hN : 0 < N) (v : Nat → ℝ) (r c : Nat) (hr : r < N) (hc : c < N) :
    ∑ i ∈ Finset.range (dim N), gval N i r c * v i =
      if r = c then (if r + 1 < N then v r else 0) - (if 0 < r then v (r - 1) else 0)
      else v (N - 1 + pairIdx N (min r c) (max r c)) +
        (if r < c then -1 else 1) * v (N - 1 + off N N + pairIdx N (min r c) (max r c)) := by
  have hd := dim_eq N hN
  by_cases hrc : r = c
  · subst hrc
    simp only [gval, if_true, sub_mul, Finset.sum_sub_distrib]
    congr 1
    · by_cases h : r + 1 < N
      · simp only [h, and_true, if_true, ite_mul, one_mul, zero_mul]
        rw [Finset.sum_ite_eq' (Finset.range (dim N)) r v, if_pos (Finset.mem_range.2 (by omega))]
      · simp [h]
    · by_cases h : 0 < r
      · have : ∀ i, (if i + 1 = r then (1:ℝ) else 0) * v i = if i = r - 1 then v i else 0 := by
          intro i
          by_cases h' : i + 1 = r
          · rw [if_pos h', if_pos (by omega), one_mul]
          · rw [if_neg h', if_neg (by omega), zero_mul]
        simp only [this]
        rw [Finset.sum_ite_eq' (Finset.range (dim N)) (r - 1) v, if_pos (Finset.mem_range.2 (by omega)), if_pos h]
      · rw [if_neg h]
        refine Finset.sum_eq_zero fun i _ => ?_
        rw [if_neg (by omega), zero_mul]
  · have hlt := pairIdx_minmax_lt N r c hr hc hrc
    simp only [gval, if_neg hrc, add_mul, Finset.sum_add_distrib, ite_mul, one_mul, zero_mul]
    congr 1
    · rw [Finset.sum_ite_eq' (Finset.range (dim N)) _ v, if_pos (Finset.mem_range.2 (by omega))]
    · rw [Finset.sum_ite_eq' (Finset.range (dim N)) _ (fun i => if r < c then -1 * v i else v i),
        if_pos (Finset.mem_range.2 (by omega))]

theorem tangent_spec (fuel N : Nat) (hf : N ≤ fuel) (v : Nat → ℝ) :
    ∃ t, tangent fuel N v = .ok t ∧
      ∀ r c, r < N → c < N → t r c = ∑ i ∈ Finset.range (dim N), gval N i r c * v i := by
  unfold tangent
  have := forN_inv (fun m (st : Outcome (Mat ℝ)) => m ≤ dim N → ∃ t, st = .ok t ∧
      ∀ r c, r < N → c < N → t r c = ∑ i ∈ Finset.range m, gval N i r c * v i) (dim N)
    (fun i st => st.bind fun t => (generator fuel N i).bind fun g => .ok (fun r c => t r c + g r c * v i))
    (.ok fun _ _ => 0) (fun _ => ⟨_, rfl, by simp⟩) ?_
  · exact this le_rfl
  · intro i st hi h hle
    obtain ⟨t, rfl, ht⟩ := h (by omega)
    obtain ⟨g, hg, hgv, -⟩ := generator_spec fuel N i hf hi
    refine ⟨_, by rw [Outcome.bind_ok, hg, Outcome.bind_ok], ?_⟩
    intro r c hr hc
    rw [Finset.sum_range_succ, ht r c hr hc, hgv r c hr hc]

/-- the second loop of `ln` stores the symmetric and antisymmetric parts at the positions of the pairs -/
theorem lnOff_spec (N : Nat) (hN : 0 < N) (l : Mat ℝ) (v0 : Vec ℝ) :
    (∀ j, j < N - 1 → (lnOff N l v0).1 j = v0 j) ∧
    ∀ r c, r < c → c < N → (lnOff N l v0).1 (N - 1 + pairIdx N r c) = (l r c + l c r) / 2 ∧
      (lnOff N l v0).1 (N - 1 + off N N + pairIdx N r c) = (-l r c + l c r) / 2 := by
  have hs := symmLimit_eq N
  have key := forRange_inv (fun i (st : Vec ℝ × Nat × Nat) =>
      st.2.1 < st.2.2 ∧ i = N - 1 + pairIdx N st.2.1 st.2.2 ∧ (st.2.2 < N ∨ (st.2.1 + 1 = N ∧ st.2.2 = N)) ∧
      (∀ j, j < N - 1 → st.1 j = v0 j) ∧
      ∀ r c, r < c → c < N → N - 1 + pairIdx N r c < i →
        st.1 (N - 1 + pairIdx N r c) = (l r c + l c r) / 2 ∧
        st.1 (N - 1 + off N N + pairIdx N r c) = (-l r c + l c r) / 2)
    (diagLimit N) (symmLimit N) (by unfold diagLimit; omega)
    (fun i st =>
      let row := st.2.1
      let col := st.2.2
      let v := Vec.set st.1 i ((l row col + l col row) * 0.5)
      let v := Vec.set v (i + countSymm N) ((-l row col + l col row) * 0.5)
      if col + 1 = N then (v, row + 1, row + 1 + 1) else (v, row, col + 1)) (v0, 0, 1)
    ⟨by simp, by simp [pairIdx, off, diagLimit], by simp only; omega, fun _ _ => rfl, by
      intro r c _ _ h; unfold diagLimit at h; omega⟩ ?_
  · obtain ⟨-, -, -, h4, h5⟩ := key
    refine ⟨h4, fun r c h1 h2 => h5 r c h1 h2 ?_⟩
    have := pairIdx_lt N r c h1 h2
    omega
  · rintro i ⟨v, row, col⟩ hlo hi ⟨h1, h2, h3, h4, h5⟩
    simp only at h1 h2 h3 h4 h5
    rw [countSymm_eq]
    have hcol : col < N := by
      rcases h3 with h | ⟨ha, hb⟩
      · exact h
      · exfalso
        have : row = N - 1 := by omega
        subst this; subst hb
        unfold pairIdx at h2
        rw [off_last _ hN] at h2
        omega
    have hv : ∀ j, j < N - 1 → Vec.set (Vec.set v i ((l row col + l col row) * 0.5)) (i + off N N)
        ((-l row col + l col row) * 0.5) j = v0 j := by
      intro j hj
      rw [Vec.set_ne _ _ _ _ (by omega), Vec.set_ne _ _ _ _ (by omega)]
      exact h4 j hj
    have hw : ∀ r c, r < c → c < N → N - 1 + pairIdx N r c < i + 1 →
        Vec.set (Vec.set v i ((l row col + l col row) * 0.5)) (i + off N N)
          ((-l row col + l col row) * 0.5) (N - 1 + pairIdx N r c) = (l r c + l c r) / 2 ∧
        Vec.set (Vec.set v i ((l row col + l col row) * 0.5)) (i + off N N)
          ((-l row col + l col row) * 0.5) (N - 1 + off N N + pairIdx N r c) = (-l r c + l c r) / 2 := by
      intro r c hr hc hlt
      have hp := pairIdx_lt N r c hr hc
      have hp' := pairIdx_lt N row col h1 hcol
      rcases Nat.lt_or_ge (N - 1 + pairIdx N r c) i with h | h
      · obtain ⟨ha, hb⟩ := h5 r c hr hc h
        constructor
        · rw [Vec.set_ne _ _ _ _ (by omega), Vec.set_ne _ _ _ _ (by omega)]; exact ha
        · rw [Vec.set_ne _ _ _ _ (by omega), Vec.set_ne _ _ _ _ (by omega)]; exact hb
      · obtain ⟨rfl, rfl⟩ := pairIdx_inj N r c row col hr hc h1 hcol (by omega)
        constructor
        · rw [Vec.set_ne _ _ _ _ (by omega), ← h2, Vec.set_self]; norm_num; ring
        · have : N - 1 + off N N + pairIdx N r c = i + off N N := by omega
          rw [this, Vec.set_self]; norm_num; ring
    by_cases hc1 : col + 1 = N
    · simp only [if_pos hc1]
      refine ⟨by omega, ?_, by omega, hv, hw⟩
      rw [h2]; unfold pairIdx; rw [off]; omega
    · simp only [if_neg hc1]
      refine ⟨by omega, ?_, by omega, hv, hw⟩
      rw [h2]; unfold pairIdx; omega

theorem lnDiag_spec (N : Nat) (l : Mat ℝ) (junk : Vec ℝ) :
    ∀ j, j < N - 1 → (lnDiag N l junk).1 j = l j j + (if 0 < j then l (j - 1) (j - 1) else 0) := by
  have := forN_inv (fun m (st : Vec ℝ × ℝ) => st.2 = (if 0 < m then l (m - 1) (m - 1) else 0) ∧
      ∀ j, j < m → st.1 j = l j j + (if 0 < j then l (j - 1) (j - 1) else 0)) (diagLimit N)
    (fun i st => (Vec.set st.1 i (l i i + st.2), l i i)) (junk, 0) ⟨by simp, by simp⟩ ?_
  · exact this.2
  · rintro i ⟨v, last⟩ hi ⟨h1, h2⟩
    refine ⟨by simp, ?_⟩
    intro j hj
    simp only at h1 h2 ⊢
    rcases Nat.lt_or_ge j i with h | h
    · rw [Vec.set_ne _ _ _ _ (by omega)]; exact h2 j h
    · obtain rfl : j = i := by omega
      rw [Vec.set_self, h1]

end TooN.SL
