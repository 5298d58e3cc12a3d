import Verif.Proof.GaussJordan
/-! Proof of `gaussian_elimination`. -/
set_option linter.unusedSectionVars false
namespace TooN.Elim
open Finset

section gen
/-! ### structure of the loops, for any element type -/
variable {K : Type _} [Zero K] [One K] [Sub K] [Mul K] [Div K] [Neg K] [LT K] [DecidableLT K] [DecidableEq K]

theorem subRow_apply (lo hi u i : Nat) (hui : u ≠ i) (f : K) (A : Mat K) (r c : Nat) :
    subRow lo hi u i f A r c = if r = u ∧ lo ≤ c ∧ c < hi then A u c - f * A i c else A r c := by
  unfold subRow
  exact forRange_row lo hi u (fun _ g => g u - f * g i) A r c

theorem scaleRow_apply (lo hi i : Nat) (s : K) (A : Mat K) (r c : Nat) :
    scaleRow lo hi i s A r c = if r = i ∧ lo ≤ c ∧ c < hi then A i c * s else A r c := by
  unfold scaleRow
  exact forRange_row lo hi i (fun _ g => g i * s) A r c

theorem subRowU_apply (upd : K → K → K → K) (lo hi u i : Nat) (hui : u ≠ i) (f : K) (A : Mat K) (r c : Nat) :
    subRowU upd lo hi u i f A r c = if r = u ∧ lo ≤ c ∧ c < hi then upd (A u c) f (A i c) else A r c := by
  unfold subRowU
  exact forRange_row lo hi u (fun _ g => upd (g u) f (g i)) A r c

/-- effect of the inner elimination loop -/
theorem geInnerU (upd : K → K → K → K) (n nc i : Nat) (A b : Mat K) :
    let st := forRange (i+1) n (fun u (st : Mat K × Mat K) =>
      let factor := st.1 u i
      (subRowU upd (i+1) n u i factor st.1, subRowU upd 0 nc u i factor st.2)) (A, b)
    (∀ r c, st.1 r c = if i < r ∧ r < n ∧ i < c ∧ c < n then upd (A r c) (A r i) (A i c) else A r c) ∧
    (∀ r c, st.2 r c = if i < r ∧ r < n ∧ c < nc then upd (b r c) (A r i) (b i c) else b r c) := by
  intro st
  by_cases hle : i + 1 ≤ n
  · have := forRange_inv (fun u (st : Mat K × Mat K) =>
      (∀ r c, st.1 r c = if i < r ∧ r < u ∧ i < c ∧ c < n then upd (A r c) (A r i) (A i c) else A r c) ∧
      (∀ r c, st.2 r c = if i < r ∧ r < u ∧ c < nc then upd (b r c) (A r i) (b i c) else b r c))
      (i+1) n hle (fun u (st : Mat K × Mat K) =>
      let factor := st.1 u i
      (subRowU upd (i+1) n u i factor st.1, subRowU upd 0 nc u i factor st.2)) (A, b)
      ⟨fun r c => by rw [if_neg (by omega)], fun r c => by rw [if_neg (by omega)]⟩
      (by
        intro u st hu hun ⟨h1, h2⟩
        have hf : st.1 u i = A u i := by rw [h1, if_neg (by omega)]
        refine ⟨?_, ?_⟩
        · intro r c
          simp only
          rw [subRowU_apply _ _ _ _ _ (by omega), hf]
          by_cases e : r = u ∧ i + 1 ≤ c ∧ c < n
          · obtain ⟨rfl, e2, e3⟩ := e
            rw [if_pos ⟨rfl, e2, e3⟩, if_pos (by omega), h1, if_neg (by omega), h1, if_neg (by omega)]
          · rw [if_neg e, h1]
            by_cases e2 : i < r ∧ r < u ∧ i < c ∧ c < n
            · rw [if_pos e2, if_pos (by omega)]
            · rw [if_neg e2, if_neg (by omega)]
        · intro r c
          simp only
          rw [subRowU_apply _ _ _ _ _ (by omega), hf]
          by_cases e : r = u ∧ 0 ≤ c ∧ c < nc
          · obtain ⟨rfl, e2, e3⟩ := e
            rw [if_pos ⟨rfl, e2, e3⟩, if_pos (by omega), h2, if_neg (by omega), h2, if_neg (by omega)]
          · rw [if_neg e, h2]
            by_cases e2 : i < r ∧ r < u ∧ c < nc
            · rw [if_pos e2, if_pos (by omega)]
            · rw [if_neg e2, if_neg (by omega)])
    exact this
  · simp only [st]
    rw [forRange_empty _ _ (by omega)]
    exact ⟨fun r c => by rw [if_neg (by omega)], fun r c => by rw [if_neg (by omega)]⟩

theorem geInner (n nc i : Nat) (A b : Mat K) :
    let st := forRange (i+1) n (fun u (st : Mat K × Mat K) =>
      let factor := st.1 u i
      (subRow (i+1) n u i factor st.1, subRow 0 nc u i factor st.2)) (A, b)
    (∀ r c, st.1 r c = if i < r ∧ r < n ∧ i < c ∧ c < n then A r c - A r i * A i c else A r c) ∧
    (∀ r c, st.2 r c = if i < r ∧ r < n ∧ c < nc then b r c - A r i * b i c else b r c) :=
  geInnerU (fun a f x => a - f * x) n nc i A b

/-- row exchange -/
def sw (i p r : Nat) : Nat := if r = p then i else if r = i then p else r

/-- one elimination step, entry by entry -/
theorem geStepT_gen (upd : K → K → K → K) (n nc i : Nat) (hi : i < n) (A b : Mat K) (p : Nat) (hpd : pivotRow n i A = p) :
    ∃ A' b', geStepT upd n nc i (A, b) = (A', b') ∧
      (∀ r c, i < c → c < n → A' r c = if r = i then A p c * (1 / A p i)
        else if i < r ∧ r < n then upd (A (sw i p r) c) (A (sw i p r) i) (A p c * (1 / A p i)) else A (sw i p r) c) ∧
      (∀ r c, c < nc → b' r c = if r = i then b p c * (1 / A p i)
        else if i < r ∧ r < n then upd (b (sw i p r) c) (A (sw i p r) i) (b p c * (1 / A p i)) else b (sw i p r) c) ∧
      (∀ r c, r < i → r ≠ p → A' r c = A r c) := by
  let A1 := if p ≠ i then swapRows i n i p A else A
  let b1 := if p ≠ i then swapRows 0 nc i p b else b
  let A2 := scaleRow (i+1) n i (1 / A p i) A1
  let b2 := scaleRow 0 nc i (1 / A p i) b1
  have hA1 : ∀ r c, i ≤ c → c < n → A1 r c = A (sw i p r) c := by
    intro r c h1 h2
    simp only [A1, sw]
    by_cases h : p ≠ i
    · rw [if_pos h, swapRows_apply, if_pos ⟨h1, h2⟩]
      split_ifs <;> rfl
    · rw [if_neg h]
      have h : p = i := not_not.1 h
      rw [h]
      split_ifs with h1 <;> first | rfl | rw [h1]
  have hb1 : ∀ r c, c < nc → b1 r c = b (sw i p r) c := by
    intro r c h1
    simp only [b1, sw]
    by_cases h : p ≠ i
    · rw [if_pos h, swapRows_apply, if_pos ⟨Nat.zero_le _, h1⟩]
      split_ifs <;> rfl
    · rw [if_neg h]
      have h : p = i := not_not.1 h
      rw [h]
      split_ifs with h1 <;> first | rfl | rw [h1]
  have swi : sw i p i = p := by
    unfold sw
    by_cases e : i = p
    · rw [if_pos e]; exact e
    · rw [if_neg e, if_pos rfl]
  have hA2 : ∀ r c, A2 r c = if r = i ∧ i+1 ≤ c ∧ c < n then A1 i c * (1 / A p i) else A1 r c :=
    scaleRow_apply (i+1) n i (1 / A p i) A1
  have hb2 : ∀ r c, b2 r c = if r = i ∧ 0 ≤ c ∧ c < nc then b1 i c * (1 / A p i) else b1 r c :=
    scaleRow_apply 0 nc i (1 / A p i) b1
  obtain ⟨g1, g2⟩ := geInnerU upd n nc i A2 b2
  refine ⟨(forRange (i+1) n (fun u (st : Mat K × Mat K) =>
      let factor := st.1 u i
      (subRowU upd (i+1) n u i factor st.1, subRowU upd 0 nc u i factor st.2)) (A2, b2)).1,
    (forRange (i+1) n (fun u (st : Mat K × Mat K) =>
      let factor := st.1 u i
      (subRowU upd (i+1) n u i factor st.1, subRowU upd 0 nc u i factor st.2)) (A2, b2)).2, ?_, ?_, ?_, ?_⟩
  · unfold geStepT
    simp only [hpd]
    rfl
  · intro r c h1 h2
    rw [g1]
    by_cases e : r = i
    · rw [if_neg (by omega), if_pos e, hA2, if_pos ⟨e, h1, h2⟩, hA1 i c (by omega) h2, swi]
    · rw [if_neg e]
      by_cases e2 : i < r ∧ r < n
      · rw [if_pos ⟨e2.1, e2.2, h1, h2⟩, if_pos e2, hA2 r c, if_neg (by omega), hA2 r i, if_neg (by omega),
          hA2 i c, if_pos ⟨rfl, h1, h2⟩, hA1 r c (by omega) h2, hA1 r i (by omega) hi, hA1 i c (by omega) h2, swi]
      · rw [if_neg (by omega), if_neg e2, hA2, if_neg (by omega), hA1 r c (by omega) h2]
  · intro r c h1
    rw [g2]
    by_cases e : r = i
    · rw [if_neg (by omega), if_pos e, hb2, if_pos ⟨e, Nat.zero_le _, h1⟩, hb1 i c h1, swi]
    · rw [if_neg e]
      by_cases e2 : i < r ∧ r < n
      · rw [if_pos ⟨e2.1, e2.2, h1⟩, if_pos e2, hb2 r c, if_neg (by omega), hA2 r i, if_neg (by omega),
          hb2 i c, if_pos ⟨rfl, Nat.zero_le _, h1⟩, hb1 r c h1, hA1 r i (by omega) hi, hb1 i c h1, swi]
      · rw [if_neg (by omega), if_neg e2, hb2, if_neg (by omega), hb1 r c h1]
  · intro r c h1 h2
    rw [g1, if_neg (by omega), hA2, if_neg (by omega)]
    simp only [A1]
    split_ifs with h
    · rw [swapRows_apply]
      split_ifs <;> first | rfl | omega
    · rfl

theorem geStepU_eq (upd : K → K → K → K) (n nc i : Nat) (A b : Mat K) (hp : A (pivotRow n i A) i ≠ 0) :
    geStepU upd n nc i (A, b) = some (geStepT upd n nc i (A, b)) := by
  unfold geStepU; dsimp only; rw [if_neg hp]; rfl

/-- one elimination step, entry by entry -/
theorem geStepU_gen (upd : K → K → K → K) (n nc i : Nat) (hi : i < n) (A b : Mat K) (p : Nat) (hpd : pivotRow n i A = p)
    (hp : A p i ≠ 0) :
    ∃ A' b', geStepU upd n nc i (A, b) = some (A', b') ∧
      (∀ r c, i < c → c < n → A' r c = if r = i then A p c * (1 / A p i)
        else if i < r ∧ r < n then upd (A (sw i p r) c) (A (sw i p r) i) (A p c * (1 / A p i)) else A (sw i p r) c) ∧
      (∀ r c, c < nc → b' r c = if r = i then b p c * (1 / A p i)
        else if i < r ∧ r < n then upd (b (sw i p r) c) (A (sw i p r) i) (b p c * (1 / A p i)) else b (sw i p r) c) ∧
      (∀ r c, r < i → r ≠ p → A' r c = A r c) := by
  obtain ⟨A', b', h1, h2⟩ := geStepT_gen upd n nc i hi A b p hpd
  exact ⟨A', b', by rw [geStepU_eq _ _ _ _ _ _ (by rw [hpd]; exact hp), h1], h2⟩

/-- one elimination step, entry by entry -/
theorem geStep_gen (n nc i : Nat) (hi : i < n) (A b : Mat K) (p : Nat) (hpd : pivotRow n i A = p)
    (hp : A p i ≠ 0) :
    ∃ A' b', geStep n nc i (A, b) = some (A', b') ∧
      (∀ r c, i < c → c < n → A' r c = if r = i then A p c * (1 / A p i)
        else if i < r ∧ r < n then A (sw i p r) c - A (sw i p r) i * (A p c * (1 / A p i)) else A (sw i p r) c) ∧
      (∀ r c, c < nc → b' r c = if r = i then b p c * (1 / A p i)
        else if i < r ∧ r < n then b (sw i p r) c - A (sw i p r) i * (b p c * (1 / A p i)) else b (sw i p r) c) ∧
      (∀ r c, r < i → r ≠ p → A' r c = A r c) :=
  geStepU_gen (fun a f x => a - f * x) n nc i hi A b p hpd hp

/-- back substitution, entry by entry -/
theorem geBack_gen (n nc : Nat) (A b x : Mat K) (r k : Nat) (hr : r < n) (hk : k < nc) :
    geBack n nc A b x r k =
      forRange (r+1) n (fun j v => v - A r j * geBack n nc A b x j k) (b r k) := by
  have key := forDown_inv (fun i (y : Mat K) => ∀ r k, i ≤ r → r < n → k < nc →
      y r k = forRange (r+1) n (fun j v => v - A r j * y j k) (b r k)) n
    (fun i x => forN nc (fun k x =>
    forRange (i+1) n (fun j x => Mat.set x i k (x i k - A i j * x j k)) (Mat.set x i k (b i k))) x) x
    (by intro r k h1 h2; omega)
    (by
      intro i y hi hy
      have hrow := forN_inv (fun kk (z : Mat K) => (∀ r k, r ≠ i → z r k = y r k) ∧
          (∀ k, k < kk → z i k = forRange (i+1) n (fun j v => v - A i j * y j k) (b i k))) nc
        (fun k x => forRange (i+1) n (fun j x => Mat.set x i k (x i k - A i j * x j k)) (Mat.set x i k (b i k))) y
        ⟨fun _ _ _ => rfl, fun k hk => by omega⟩
        (by
          intro kk z hkk ⟨g1, g2⟩
          have hcell := forRange_inv (fun jj (w : Mat K) => (∀ r k, ¬ (r = i ∧ k = kk) → w r k = z r k) ∧
              w i kk = forRange (i+1) jj (fun j v => v - A i j * y j kk) (b i kk)) (i+1) n (by omega)
            (fun j x => Mat.set x i kk (x i kk - A i j * x j kk)) (Mat.set z i kk (b i kk))
            ⟨fun r k h => Mat.set_ne _ _ _ _ _ _ h, by rw [Mat.set_self, forRange_empty _ _ (Nat.le_refl _)]⟩
            (by
              intro j w hj1 hj2 ⟨w1, w2⟩
              refine ⟨fun r k h => by rw [Mat.set_ne _ _ _ _ _ _ h]; exact w1 r k h, ?_⟩
              rw [Mat.set_self, w2, w1 j kk (by omega), g1 j kk (by omega), forRange_succ _ _ hj1])
          obtain ⟨c1, c2⟩ := hcell
          refine ⟨fun r k hr => by rw [c1 r k (by tauto)]; exact g1 r k hr, ?_⟩
          intro k hk
          by_cases e : k = kk
          · subst e; exact c2
          · rw [c1 i k (by tauto)]; exact g2 k (by omega))
      obtain ⟨r1, r2⟩ := hrow
      intro r k hr1 hr2 hk
      by_cases e : r = i
      · subst e
        rw [r2 k hk]
        apply forRange_congr
        intro j t h1 h2
        rw [r1 j k (by omega)]
      · rw [r1 r k e, hy r k (by omega) hr2 hk]
        apply forRange_congr
        intro j t h1 h2
        rw [r1 j k (by omega)])
  exact key r k (by omega) hr hk

theorem geStep_none (n nc i : Nat) (A b : Mat K) (hp : A (pivotRow n i A) i = 0) :
    geStep n nc i (A, b) = none := by
  unfold geStep; simp only; rw [if_pos hp]

theorem geStepU_none (upd : K → K → K → K) (n nc i : Nat) (A b : Mat K) (hp : A (pivotRow n i A) i = 0) :
    geStepU upd n nc i (A, b) = none := by
  unfold geStepU; simp only; rw [if_pos hp]

theorem gaussElimU_std (n nc : Nat) (A b x : Mat K) :
    gaussElimU (fun a f x => a - f * x) n nc A b x = gaussElim n nc A b x := rfl

end gen

variable {K : Type _} [Field K] [LinearOrder K] [IsStrictOrderedRing K]

/-- the augmented matrix the algorithm implicitly works on: entries of eliminated columns that are
still stored but never read again are replaced by their mathematical value -/
def aug (n i : Nat) (A b : Mat K) : Mat K := fun r c =>
  if c < n then (if c < i then (if r < c then A r c else if r = c then 1 else 0) else A r c)
  else b r (c - n)

/-- back substitution -/
theorem geBack_spec (n nc : Nat) (A b x : Mat K) (r k : Nat) (hr : r < n) (hk : k < nc) :
    geBack n nc A b x r k = b r k - ∑ j ∈ Ico (r+1) n, A r j * geBack n nc A b x j k := by
  have key := forDown_inv (fun i (y : Mat K) => ∀ r k, i ≤ r → r < n → k < nc →
      y r k = b r k - ∑ j ∈ Ico (r+1) n, A r j * y j k) n
    (fun i x => forN nc (fun k x =>
    forRange (i+1) n (fun j x => Mat.set x i k (x i k - A i j * x j k)) (Mat.set x i k (b i k))) x) x
    (by intro r k h1 h2; omega)
    (by
      intro i y hi hy
      -- one row
      have hrow := forN_inv (fun kk (z : Mat K) => (∀ r k, r ≠ i → z r k = y r k) ∧
          (∀ k, k < kk → z i k = b i k - ∑ j ∈ Ico (i+1) n, A i j * y j k)) nc
        (fun k x => forRange (i+1) n (fun j x => Mat.set x i k (x i k - A i j * x j k)) (Mat.set x i k (b i k))) y
        ⟨fun _ _ _ => rfl, fun k hk => by omega⟩
        (by
          intro kk z hkk ⟨g1, g2⟩
          have hcell := forRange_inv (fun jj (w : Mat K) => (∀ r k, ¬ (r = i ∧ k = kk) → w r k = z r k) ∧
              w i kk = b i kk - ∑ j ∈ Ico (i+1) jj, A i j * y j kk) (i+1) n (by omega)
            (fun j x => Mat.set x i kk (x i kk - A i j * x j kk)) (Mat.set z i kk (b i kk))
            ⟨fun r k h => Mat.set_ne _ _ _ _ _ _ h, by simp⟩
            (by
              intro j w hj1 hj2 ⟨w1, w2⟩
              refine ⟨fun r k h => by rw [Mat.set_ne _ _ _ _ _ _ h]; exact w1 r k h, ?_⟩
              rw [Mat.set_self, w2, w1 j kk (by omega), g1 j kk (by omega),
                sum_Ico_succ_top (by omega)]
              ring)
          obtain ⟨c1, c2⟩ := hcell
          refine ⟨fun r k hr => by rw [c1 r k (by tauto)]; exact g1 r k hr, ?_⟩
          intro k hk
          by_cases e : k = kk
          · subst e; exact c2
          · rw [c1 i k (by tauto)]; exact g2 k (by omega))
      obtain ⟨r1, r2⟩ := hrow
      intro r k hr1 hr2 hk
      by_cases e : r = i
      · subst e
        rw [r2 k hk]
        congr 1
        apply sum_congr rfl
        intro j hj
        rw [r1 j k (by have := mem_Ico.1 hj; omega)]
      · rw [r1 r k e, hy r k (by omega) hr2 hk]
        congr 1
        apply sum_congr rfl
        intro j hj
        rw [r1 j k (by have := mem_Ico.1 hj; omega)])
  exact key r k (by omega) hr hk

omit [LinearOrder K] [IsStrictOrderedRing K] in
theorem sum_split_upper (n r : Nat) (hr : r < n) (f : Nat → K) (h0 : ∀ c, c < r → f c = 0) :
    ∑ c ∈ range n, f c = f r + ∑ c ∈ Ico (r+1) n, f c := by
  rw [range_eq_Ico, ← sum_Ico_consecutive f (Nat.zero_le r) (by omega : r ≤ n),
    sum_eq_zero (s := Ico 0 r) (fun c hc => h0 c (mem_Ico.1 hc).2), zero_add,
    sum_eq_sum_Ico_succ_bot hr]

/-- back substitution solves a unit upper triangular system -/
theorem geBack_solves (n nc : Nat) (A b x : Mat K) (r k : Nat) (hr : r < n) (hk : k < nc) :
    ∑ c ∈ range n, aug n n A b r c * geBack n nc A b x c k = b r k := by
  rw [sum_split_upper n r hr]
  · have h1 : aug n n A b r r = 1 := by unfold aug; rw [if_pos hr, if_pos hr, if_neg (by omega), if_pos rfl]
    rw [h1, one_mul, geBack_spec n nc A b x r k hr hk]
    have : ∀ j ∈ Ico (r+1) n, aug n n A b r j * geBack n nc A b x j k = A r j * geBack n nc A b x j k := by
      intro j hj
      have := mem_Ico.1 hj
      unfold aug; rw [if_pos (by omega), if_pos (by omega), if_pos (by omega)]
    rw [sum_congr rfl this]; ring
  · intro c hc
    unfold aug
    rw [if_pos (by omega), if_pos (by omega), if_neg (by omega), if_neg (by omega), zero_mul]

/-- a partially eliminated matrix whose next column vanishes below the eliminated part is singular -/
theorem aug_pivot_ne (n i : Nat) (hi : i < n) (A b : Mat K) (ht : Trivial n (aug n i A b)) :
    A (pivotRow n i A) i ≠ 0 := by
  intro h0
  obtain ⟨-, -, p3⟩ := pivotRow_spec n i hi A
  have hz : ∀ r, i ≤ r → r < n → A r i = 0 := by
    intro r h1 h2
    have := p3 r h1 h2
    rw [h0, abs_zero] at this
    exact abs_eq_zero.1 (le_antisymm this (abs_nonneg _))
  let y := geBack i 1 A (fun r _ => - A r i) (fun _ _ => 0)
  let x : Vec K := fun c => if c < i then y c 0 else if c = i then 1 else 0
  have h1 := ht x ?_ i hi
  · simp [x] at h1
  · intro r hr
    have e : ∑ c ∈ range n, aug n i A b r c * x c =
        ∑ c ∈ range i, aug n i A b r c * y c 0 + A r i := by
      rw [range_eq_Ico, ← sum_Ico_consecutive _ (Nat.zero_le i) (by omega : i ≤ n),
        sum_eq_sum_Ico_succ_bot hi, range_eq_Ico]
      have e1 : ∑ c ∈ Ico 0 i, aug n i A b r c * x c = ∑ c ∈ Ico 0 i, aug n i A b r c * y c 0 := by
        apply sum_congr rfl
        intro c hc
        simp only [x]; rw [if_pos (mem_Ico.1 hc).2]
      have e2 : ∑ c ∈ Ico (i+1) n, aug n i A b r c * x c = 0 := by
        apply sum_eq_zero
        intro c hc
        have := mem_Ico.1 hc
        simp only [x]; rw [if_neg (by omega), if_neg (by omega), mul_zero]
      have e3 : aug n i A b r i * x i = A r i := by
        simp only [x, aug]; rw [if_pos hi]; simp
      rw [e1, e2, e3]; ring
    rw [e]
    by_cases hri : r < i
    · have := geBack_solves i 1 A (fun r _ => - A r i) (fun _ _ => 0) r 0 hri (by omega)
      have e2 : ∑ c ∈ range i, aug n i A b r c * y c 0 = - A r i := by
        rw [← this]
        apply sum_congr rfl
        intro c hc
        have hc := mem_range.1 hc
        simp only [y]
        congr 1
        unfold aug
        rw [if_pos (by omega : c < n), if_pos hc, if_pos hc]
      rw [e2]; ring
    · have e2 : ∑ c ∈ range i, aug n i A b r c * y c 0 = 0 := by
        apply sum_eq_zero
        intro c hc
        have hc := mem_range.1 hc
        unfold aug
        rw [if_pos (by omega : c < n), if_pos hc, if_neg (by omega), if_neg (by omega), zero_mul]
      rw [e2, hz r (by omega) hr, add_zero]

/-- one elimination step: succeeds when the pivot is nonzero, and keeps the kernel of the augmented matrix -/
theorem geStep_spec (n nc i : Nat) (hi : i < n) (A b : Mat K) (hp : A (pivotRow n i A) i ≠ 0) :
    ∃ A' b', geStep n nc i (A, b) = some (A', b') ∧
      ∀ w, Ker n (n+nc) (aug n (i+1) A' b') w ↔ Ker n (n+nc) (aug n i A b) w := by
  obtain ⟨p1, p2, p3⟩ := pivotRow_spec n i hi A
  set p := pivotRow n i A with hpdef
  let A1 := if p ≠ i then swapRows i n i p A else A
  let b1 := if p ≠ i then swapRows 0 nc i p b else b
  let A2 := scaleRow (i+1) n i (1 / A p i) A1
  let b2 := scaleRow 0 nc i (1 / A p i) b1
  have hA1 : ∀ r c, A1 r c = if i ≤ c ∧ c < n then (if r = p then A i c else if r = i then A p c else A r c) else A r c := by
    intro r c
    simp only [A1]
    by_cases h : p ≠ i
    · rw [if_pos h, swapRows_apply]
    · rw [if_neg h]
      have h : p = i := not_not.1 h
      rw [h]
      split_ifs with h1 h2 <;> first | rfl | rw [h2]
  have hb1 : ∀ r c, b1 r c = if c < nc then (if r = p then b i c else if r = i then b p c else b r c) else b r c := by
    intro r c
    simp only [b1]
    by_cases h : p ≠ i
    · rw [if_pos h, swapRows_apply]; simp
    · rw [if_neg h]
      have h : p = i := not_not.1 h
      rw [h]
      split_ifs with h1 h2 <;> first | rfl | rw [h2]
  have hA2 : ∀ r c, A2 r c = if r = i ∧ i+1 ≤ c ∧ c < n then A1 i c * (1 / A p i) else A1 r c :=
    scaleRow_apply (i+1) n i (1 / A p i) A1
  have hb2 : ∀ r c, b2 r c = if r = i ∧ 0 ≤ c ∧ c < nc then b1 i c * (1 / A p i) else b1 r c :=
    scaleRow_apply 0 nc i (1 / A p i) b1
  obtain ⟨g1, g2⟩ := geInner n nc i A2 b2
  refine ⟨(forRange (i+1) n (fun u (st : Mat K × Mat K) =>
      let factor := st.1 u i
      (subRow (i+1) n u i factor st.1, subRow 0 nc u i factor st.2)) (A2, b2)).1, (forRange (i+1) n (fun u (st : Mat K × Mat K) =>
      let factor := st.1 u i
      (subRow (i+1) n u i factor st.1, subRow 0 nc u i factor st.2)) (A2, b2)).2, ?_, ?_⟩
  · unfold geStep
    simp only
    rw [if_neg (by rw [← hpdef]; exact hp)]
  · intro w
    set A3 := (forRange (i+1) n (fun u (st : Mat K × Mat K) =>
      let factor := st.1 u i
      (subRow (i+1) n u i factor st.1, subRow 0 nc u i factor st.2)) (A2, b2)).1
    set b3 := (forRange (i+1) n (fun u (st : Mat K × Mat K) =>
      let factor := st.1 u i
      (subRow (i+1) n u i factor st.1, subRow 0 nc u i factor st.2)) (A2, b2)).2
    have hpiv : A1 i i = A p i := by
      rw [hA1, if_pos ⟨le_refl _, hi⟩]
      by_cases e : i = p
      · rw [if_pos e, ← e]
      · rw [if_neg e, if_pos rfl]
    -- swap
    have k1 : Ker n (n+nc) (aug n i A1 b1) w ↔ Ker n (n+nc) (aug n i A b) w := by
      apply Ker_swap w i p hi p2
      intro r c hr hc
      unfold aug
      by_cases hcn : c < n
      · simp only [if_pos hcn]
        by_cases hci : c < i
        · simp only [if_pos hci]
          have h1 : ∀ r, A1 r c = A r c := fun r => by rw [hA1, if_neg (by omega)]
          simp only [h1]
          split_ifs <;> first | rfl | omega
        · simp only [if_neg hci]
          rw [hA1, if_pos (by omega)]
      · simp only [if_neg hcn]
        rw [hb1, if_pos (by omega)]
    -- scale
    let M2 : Mat K := fun r c => if r = i then aug n i A1 b1 r c * (1 / A p i) else aug n i A1 b1 r c
    have k2 : Ker n (n+nc) M2 w ↔ Ker n (n+nc) (aug n i A1 b1) w := by
      apply Ker_scale w (fun r => if r = i then 1 / A p i else 1)
      · intro r _; split
        · exact one_div_ne_zero hp
        · exact one_ne_zero
      · intro r c _ _
        simp only [M2]
        split <;> ring
    -- eliminate
    have k3 : Ker n (n+nc) (aug n (i+1) A3 b3) w ↔ Ker n (n+nc) M2 w := by
      apply Ker_elim w i hi (fun r => if i < r then A1 r i else 0) (by simp)
      intro r c hr hc
      by_cases hcn : c < n
      · have hL : aug n (i+1) A3 b3 r c = (if c < i+1 then (if r < c then A3 r c else if r = c then 1 else 0) else A3 r c) := by
          unfold aug; rw [if_pos hcn]
        have hM : ∀ r, aug n i A1 b1 r c = (if c < i then (if r < c then A1 r c else if r = c then 1 else 0) else A1 r c) := by
          intro r; unfold aug; rw [if_pos hcn]
        rw [hL]
        simp only [M2, hM, if_true]
        by_cases hci : c < i
        · simp only [if_pos hci, if_pos (by omega : c < i + 1), if_neg (by omega : ¬ i < c), if_neg (by omega : ¬ i = c)]
          have hA3 : A3 r c = A1 r c := by
            rw [g1, if_neg (by omega), hA2, if_neg (by omega)]
          rw [hA3]
          split_ifs <;> first | omega | ring
        · simp only [if_neg hci]
          by_cases hce : c = i
          · subst hce
            rw [if_pos (by omega)]
            by_cases hrc : r < c
            · rw [if_pos hrc, if_neg (by omega : ¬ r = c), if_neg (by omega : ¬ c < r), g1, if_neg (by omega), hA2,
                if_neg (by omega)]; ring
            · rw [if_neg hrc]
              by_cases hre : r = c
              · subst hre
                rw [if_pos rfl, if_pos rfl, if_neg (by omega), hpiv]
                field_simp; ring
              · rw [if_neg hre, if_neg hre, if_pos (by omega : c < r), hpiv]
                field_simp; ring
          · rw [if_neg (by omega : ¬ c < i+1), g1]
            by_cases hre : r = i
            · subst hre
              rw [if_neg (by omega), if_pos rfl, if_neg (by omega : ¬ r < r), hA2, if_pos (by omega)]; ring
            · rw [if_neg hre]
              by_cases hri : i < r
              · rw [if_pos (by omega), if_pos hri, hA2 r c, if_neg (by omega), hA2 r i, if_neg (by omega),
                  hA2 i c, if_pos (by omega)]
              · rw [if_neg (by omega), if_neg hri, hA2, if_neg (by omega)]; ring
      · have hL : aug n (i+1) A3 b3 r c = b3 r (c - n) := by
          unfold aug; rw [if_neg hcn]
        have hM : ∀ r, aug n i A1 b1 r c = b1 r (c - n) := by
          intro r; unfold aug; rw [if_neg hcn]
        rw [hL]
        simp only [M2, hM, if_true]
        rw [g2]
        by_cases hre : r = i
        · subst hre
          rw [if_neg (by omega), if_pos rfl, if_neg (by omega : ¬ r < r), hb2, if_pos (by omega)]; ring
        · rw [if_neg hre]
          by_cases hri : i < r
          · rw [if_pos (by omega), if_pos hri, hb2 r, if_neg (by omega), hA2 r i, if_neg (by omega),
              hb2 i, if_pos (by omega)]
          · rw [if_neg (by omega), if_neg hri, hb2, if_neg (by omega)]; ring
    exact k3.trans (k2.trans k1)

theorem geSteps (n nc : Nat) (A b : Mat K) (ht : Trivial n A) :
    ∃ A' b', forNM n (geStep n nc) (A, b) = some (A', b') ∧
      ∀ w, Ker n (n+nc) (aug n n A' b') w ↔ Ker n (n+nc) (aug n 0 A b) w := by
  have ht0 : Trivial n (aug n 0 A b) := by
    intro x hx
    apply ht x
    intro r hr
    rw [← hx r hr]
    apply sum_congr rfl
    intro c hc
    unfold aug
    rw [if_pos (mem_range.1 hc), if_neg (by omega)]
  have := forNM_total (fun i (st : Mat K × Mat K) => ∀ w, Ker n (n+nc) (aug n i st.1 st.2) w ↔
      Ker n (n+nc) (aug n 0 A b) w) n (geStep n nc) (A, b) (fun w => Iff.rfl)
    (by
      intro i st hi h
      have htt := trivial_of_ker (by omega : n ≤ n + nc) h ht0
      obtain ⟨A', b', e, hk⟩ := geStep_spec n nc i hi st.1 st.2 (aug_pivot_ne n i hi st.1 st.2 htt)
      exact ⟨(A', b'), e, fun w => (hk w).trans (h w)⟩)
  obtain ⟨st, h1, h2⟩ := this
  exact ⟨st.1, st.2, h1, h2⟩

theorem gaussElim_solves (n nc : Nat) (A b x : Mat K) (ht : Trivial n A) :
    ∃ X, gaussElim n nc A b x = some X ∧
      ∀ r k, r < n → k < nc → ∑ c ∈ range n, A r c * X c k = b r k := by
  obtain ⟨A', b', e, hk⟩ := geSteps n nc A b ht
  refine ⟨geBack n nc A' b' x, by rw [gaussElim, e]; rfl, ?_⟩
  intro r k hr hkc
  have h1 : Ker n (n+nc) (aug n n A' b') (extj n (n+k) (fun c => geBack n nc A' b' x c k)) := by
    intro r hr
    rw [sum_extj n (n+k) (n+nc) (by omega) (by omega), geBack_solves n nc A' b' x r k hr hkc]
    unfold aug
    rw [if_neg (by omega), Nat.add_sub_cancel_left, sub_self]
  have h2 := (hk _).1 h1 r hr
  rw [sum_extj n (n+k) (n+nc) (by omega) (by omega)] at h2
  have h3 : aug n 0 A b r (n+k) = b r k := by
    unfold aug; rw [if_neg (by omega), Nat.add_sub_cancel_left]
  rw [h3, sub_eq_zero] at h2
  rw [← h2]
  apply sum_congr rfl
  intro c hc
  unfold aug
  rw [if_pos (mem_range.1 hc), if_neg (by omega)]


/-- if the loop succeeds the matrix was invertible -/
theorem gaussElim_some_trivial (n nc : Nat) (A b x X : Mat K) (h : gaussElim n nc A b x = some X) :
    Trivial n A := by
  unfold gaussElim at h
  cases hq : forNM n (geStep n nc) (A, b) with
  | none => rw [hq] at h; cases h
  | some st =>
    have := forNM_inv (fun i (st : Mat K × Mat K) => ∀ w, Ker n (n+nc) (aug n i st.1 st.2) w ↔
      Ker n (n+nc) (aug n 0 A b) w) n (geStep n nc) (A, b) st (fun w => Iff.rfl)
      (by
        intro i t t' hi hk ht
        by_cases hp : t.1 (pivotRow n i t.1) i = 0
        · rw [show t = (t.1, t.2) from rfl, geStep_none n nc i t.1 t.2 hp] at ht; cases ht
        · obtain ⟨A', b', e, hk'⟩ := geStep_spec n nc i hi t.1 t.2 hp
          rw [show t = (t.1, t.2) from rfl, e] at ht
          cases ht
          exact fun w => (hk' w).trans (hk w)) hq
    -- a unit upper triangular matrix has a trivial kernel
    have htri : Trivial n (aug n n st.1 st.2) := by
      intro x hx
      have key : ∀ d c, c < n → n ≤ c + d → x c = 0 := by
        intro d
        induction d with
        | zero => intro c h1 h2; omega
        | succ d ih =>
          intro c hc hd
          have := hx c hc
          rw [sum_split_upper n c hc] at this
          · rw [sum_eq_zero (s := Ico (c+1) n)] at this
            · unfold aug at this
              rw [if_pos hc, if_pos hc, if_neg (by omega), if_pos rfl] at this
              simpa using this
            · intro j hj
              have := mem_Ico.1 hj
              rw [ih j (by omega) (by omega), mul_zero]
          · intro j hj
            unfold aug
            rw [if_pos (by omega), if_pos (by omega), if_neg (by omega), if_neg (by omega), zero_mul]
      intro c hc; exact key n c hc (by omega)
    have h0 := trivial_of_ker (by omega : n ≤ n + nc) (fun w => (this w).symm) htri
    intro x hx
    apply h0 x
    intro r hr
    rw [← hx r hr]
    apply sum_congr rfl
    intro c hc
    unfold aug
    rw [if_pos (mem_range.1 hc), if_neg (by omega)]

end TooN.Elim
