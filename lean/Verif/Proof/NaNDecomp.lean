import Verif.Model.NaNDecomp
import Verif.Proof.Special
import Verif.Proof.Cholesky
import Verif.Proof.WLS
import Verif.Proof.FloatWLS
/-!
# Values that no operation gets rid of, in the decompositions
-/
set_option linter.unusedSectionVars false
namespace TooN.Special
open TooN.Ops TooN.Elim

variable {K : Type} [Zero K] [One K] [Add K] [Sub K] [Mul K] [Div K] [Neg K] [LT K] [DecidableLT K] [DecidableEq K]
variable {P : K → Prop}

/-! ### Cholesky -/

theorem forN_sub_sticky (hP : Sticky P) (n : Nat) (t : Nat → K) (s : K) (h : P s ∨ ∃ i, i < n ∧ P (t i)) :
    P (forN n (fun i a => a - t i) s) := by
  refine forN_sticky (fun a i => a - t i) n s (fun a i _ h => hP.sub _ _ (Or.inl h)) ?_
  rcases h with h | ⟨i, hi, h⟩
  · exact Or.inl h
  · exact Or.inr ⟨i, hi, fun a => hP.sub _ _ (Or.inr h)⟩

theorem forRange_sub_sticky (hP : Sticky P) (lo hi : Nat) (t : Nat → K) (s : K) (h : P s ∨ ∃ i, lo ≤ i ∧ i < hi ∧ P (t i)) :
    P (forRange lo hi (fun i a => a - t i) s) := by
  refine forRange_sticky (fun a i => a - t i) lo hi s (fun a i _ _ h => hP.sub _ _ (Or.inl h)) ?_
  rcases h with h | ⟨i, h1, h2, h⟩
  · exact Or.inl h
  · exact Or.inr ⟨i, h1, h2, fun a => hP.sub _ _ (Or.inr h)⟩

theorem val_sticky (hP : Sticky P) (m : Mat K) (row col : Nat) (h : P (m row col) ∨ ∃ j, j < col ∧ P (m row j)) :
    P (Chol.val m row col) := by
  unfold Chol.val
  refine forN_sub_sticky hP col (fun j => m j col * m row j) _ ?_
  rcases h with h | ⟨j, hj, h⟩
  · exact Or.inl h
  · exact Or.inr ⟨j, hj, hP.mul _ _ (Or.inr h)⟩

/-- what the factorisation keeps: the lower triangle, and the diagonal of the finished columns, which reaches the column below -/
structure CholKeep (P : K → Prop) (n : Nat) (A : Mat K) (k : Nat) (m : Mat K) : Prop where
  low : ∀ r c, c ≤ r → r < n → P (A r c) → P (m r c)
  diag : ∀ r c, c ≤ r → r < k → P (A r c) → P (m r r)
  below : ∀ r c, c < k → c < r → r < n → P (A c c) → P (m r c)

/-- the state is one in which `CholKeep` holds for the finished columns -/
def CholState (P : K → Prop) (n : Nat) (A : Mat K) (col : Nat) : Chol.St K → Prop
  | .run m _ => CholKeep P n A col m
  | .ret m k => k < n ∧ CholKeep P n A k m

theorem chol_step (hP : Sticky P) (hden : ∀ a b, P b → P (a / b)) (n : Nat) (A : Mat K) (h0 : ¬ P 0) (col : Nat) (hc : col < n)
    (s : Chol.St K) (h : CholState P n A col s) : CholState P n A (col + 1) (Chol.colBody n col s) := by
  cases s with
  | ret m k => exact h
  | run m d =>
    rw [Chol.colBody_spec n col hc]
    by_cases hv : Chol.val m col col = 0
    · rw [if_pos hv]
      refine ⟨hc, fun r c hcr hr hA => ?_, fun r c hcr hr hA => ?_, fun r c h1 h2 h3 hA => ?_⟩
      · by_cases e : r = col ∧ c = col
        · obtain ⟨rfl, rfl⟩ := e
          exact (h0 (hv ▸ val_sticky hP m _ _ (Or.inl (h.1 _ _ hcr hr hA)))).elim
        · rw [Mat.set_ne _ _ _ _ _ _ e]; exact h.1 r c hcr hr hA
      · rw [Mat.set_ne _ _ _ _ _ _ (by omega)]; exact h.2 r c hcr hr hA
      · rw [Mat.set_ne _ _ _ _ _ _ (by omega)]; exact h.3 r c h1 h2 h3 hA
    · rw [if_neg hv]
      refine ⟨fun r c hcr hr hA => ?_, fun r c hcr hr hA => ?_, fun r c h1 h2 h3 hA => ?_⟩
      · unfold Chol.colRes
        by_cases e : r = col ∧ c = col
        · obtain ⟨rfl, rfl⟩ := e
          rw [if_pos ⟨rfl, rfl⟩]
          exact val_sticky hP m _ _ (Or.inl (h.1 _ _ hcr hr hA))
        · rw [if_neg e, if_neg (by omega)]
          by_cases e2 : c = col ∧ col < r ∧ r < n
          · obtain ⟨rfl, e3⟩ := e2
            rw [if_pos ⟨rfl, e3⟩]
            exact hP.mul _ _ (Or.inl (val_sticky hP m r c (Or.inl (h.1 r c hcr hr hA))))
          · rw [if_neg e2]; exact h.1 r c hcr hr hA
      · by_cases e : r = col
        · subst e
          unfold Chol.colRes
          rw [if_pos ⟨rfl, rfl⟩]
          refine val_sticky hP m r r ?_
          by_cases e : c = r
          · subst e; exact Or.inl (h.1 c c hcr hc hA)
          · exact Or.inr ⟨c, by omega, h.1 r c hcr hc hA⟩
        · rw [Chol.colRes_lt _ _ _ _ _ e e]
          exact h.2 r c hcr (by omega) hA
      · by_cases e : c = col
        · subst e
          unfold Chol.colRes
          rw [if_neg (by omega), if_neg (by omega), if_pos ⟨rfl, h2, h3⟩]
          exact hP.mul _ _ (Or.inr (hden _ _ (val_sticky hP m c c (Or.inl (h.1 c c (le_refl _) hc hA)))))
        · unfold Chol.colRes
          rw [if_neg (by omega), if_neg (by omega), if_neg (by omega)]
          exact h.3 r c (by omega) h2 h3 hA

theorem chol_keep (hP : Sticky P) (hden : ∀ a b, P b → P (a / b)) (n : Nat) (A : Mat K) (h0 : ¬ P 0) :
    (Chol.compute n A).2 ≤ n ∧ CholKeep P n A (Chol.compute n A).2 (Chol.compute n A).1 := by
  have := forN_inv (fun col s => CholState P n A col s) n (Chol.colBody n) (.run A 1)
    ⟨fun r c _ _ h => h, fun r c _ hr _ => by omega, fun r c hr _ _ _ => by omega⟩
    (fun col s hc h => chol_step hP hden n A h0 col hc s h)
  unfold Chol.compute Chol.finish
  generalize forN n (Chol.colBody n) (.run A 1) = s at this
  cases s with
  | run m d => exact ⟨le_refl _, this⟩
  | ret m k => exact ⟨le_of_lt this.1, this.2⟩

theorem divDiagT_apply (n : Nat) (m : Mat K) (y : Vec K) (i : Nat) :
    Chol.divDiagT n m y i = if i < n then y i / m i i else y i := by
  unfold Chol.divDiagT
  exact forN_vecupd n (fun i y => y / m i i) y i

theorem divDiagMT_apply (n nc : Nat) (m y : Mat K) (i k : Nat) :
    Chol.divDiagMT n nc m y i k = if i < n ∧ k < nc then y i k * (1 / m i i) else y i k := by
  unfold Chol.divDiagMT
  induction n with
  | zero => rw [forN_zero, if_neg (by omega)]
  | succ n ih =>
    rw [forN_succ, Chol.setRow]
    by_cases e : i = n ∧ k < nc
    · obtain ⟨rfl, e⟩ := e
      rw [if_pos ⟨rfl, e⟩, if_pos (by omega), ih, if_neg (by omega)]
    · rw [if_neg e, ih]
      by_cases e2 : i < n ∧ k < nc
      · rw [if_pos e2, if_pos (by omega)]
      · rw [if_neg e2, if_neg (by omega)]

theorem fwd_sticky (hP : Sticky P) (n : Nat) (m : Mat K) (v u : Vec K) (r : Nat) (hr : r < n)
    (h : P (v r) ∨ ∃ j, j < r ∧ (P (m r j) ∨ P (Chol.fwd n m v u j))) : P (Chol.fwd n m v u r) := by
  rw [Chol.fwd_gen n m v u r hr]
  refine forN_sub_sticky hP r (fun j => m r j * Chol.fwd n m v u j) _ ?_
  rcases h with h | ⟨j, hj, h⟩
  · exact Or.inl h
  · exact Or.inr ⟨j, hj, hP.mul _ _ h⟩

theorem bwd_sticky (hP : Sticky P) (n : Nat) (m : Mat K) (y w : Vec K) (i : Nat) (hi : i < n) (h : P (y i)) (k : Nat) (hk : k ≤ i) :
    P (Chol.bwd n m y w k) := by
  have hx : P (Chol.bwd n m y w i) := by
    rw [Chol.bwd_gen n m y w i hi]
    exact forRange_sub_sticky hP (i+1) n (fun j => m j i * Chol.bwd n m y w j) _ (Or.inl h)
  by_cases e : k = i
  · exact e ▸ hx
  · rw [Chol.bwd_gen n m y w k (by omega)]
    exact forRange_sub_sticky hP (k+1) n (fun j => m j k * Chol.bwd n m y w j) _
      (Or.inr ⟨i, by omega, by omega, hP.mul _ _ (Or.inr hx)⟩)

/-- an invalid element of the right-hand side or below the diagonal reaches everything, one on the diagonal the elements up to it -/
theorem subst_sticky (hP : Sticky P) (n : Nat) (m : Mat K) (v u w y : Vec K)
    (hy1 : ∀ i, i < n → P (Chol.fwd n m v u i) → P (y i)) (hy2 : ∀ i, i < n → P (m i i) → P (y i)) (k : Nat) (hk : k < n)
    (h : (∃ i, i < n ∧ (P (v i) ∨ ∃ j, j < i ∧ P (m i j))) ∨ ∃ i, i < n ∧ k ≤ i ∧ P (m i i)) : P (Chol.bwd n m y w k) := by
  rcases h with ⟨i, hi, h⟩ | ⟨i, hi, hki, h⟩
  · have hf : P (Chol.fwd n m v u i) := fwd_sticky hP n m v u i hi (by
      rcases h with h | ⟨j, hj, h⟩
      · exact Or.inl h
      · exact Or.inr ⟨j, hj, Or.inl h⟩)
    have hl : P (Chol.fwd n m v u (n-1)) := by
      by_cases e : i = n - 1
      · exact e ▸ hf
      · exact fwd_sticky hP n m v u (n-1) (by omega) (Or.inr ⟨i, by omega, Or.inr hf⟩)
    exact bwd_sticky hP n m y w (n-1) (by omega) (hy1 _ (by omega) hl) k (by omega)
  · exact bwd_sticky hP n m y w i hi (hy2 i hi h) k hki

theorem backsubT_sticky (hP : Sticky P) (hden : ∀ a b, P b → P (a / b)) (n : Nat) (m : Mat K) (v u w : Vec K) (k : Nat) (hk : k < n)
    (h : (∃ i, i < n ∧ (P (v i) ∨ ∃ j, j < i ∧ P (m i j))) ∨ ∃ i, i < n ∧ k ≤ i ∧ P (m i i)) : P (Chol.backsubT n m v u w k) := by
  unfold Chol.backsubT
  refine subst_sticky hP n m v u w _ (fun i hi h => ?_) (fun i hi h => ?_) k hk h
  · rw [divDiagT_apply, if_pos hi]; exact hP.num _ _ h
  · rw [divDiagT_apply, if_pos hi]; exact hden _ _ h

theorem backsubMT_sticky (hP : Sticky P) (hden : ∀ a b, P b → P (a / b)) (n nc : Nat) (m B u w : Mat K) (k q : Nat) (hk : k < n)
    (hq : q < nc) (h : (∃ i, i < n ∧ (P (B i q) ∨ ∃ j, j < i ∧ P (m i j))) ∨ ∃ i, i < n ∧ k ≤ i ∧ P (m i i)) :
    P (Chol.backsubMT n nc m B u w k q) := by
  unfold Chol.backsubMT
  have := congrFun (Chol.bwdM_col n nc m (Chol.divDiagMT n nc m (Chol.fwdM n nc m B u)) w q hq) k
  rw [this]
  refine subst_sticky hP n m (fun i => B i q) (fun i => u i q) _ _ (fun i hi h => ?_) (fun i hi h => ?_) k hk h
  · rw [divDiagMT_apply, if_pos ⟨hi, hq⟩]
    exact hP.mul _ _ (Or.inl ((congrFun (Chol.fwdM_col n nc m B u q hq) i).symm ▸ h))
  · rw [divDiagMT_apply, if_pos ⟨hi, hq⟩]; exact hP.mul _ _ (Or.inr (hden _ _ h))

/-- the hypothesis of the previous theorems, in terms of the matrix that was factored -/
theorem chol_reach (hP : Sticky P) (hden : ∀ a b, P b → P (a / b)) (n : Nat) (A : Mat K) (h0 : ¬ P 0) (v : Vec K) (k : Nat)
    (hk : k < n)
    (h : (∃ i, i < n ∧ P (v i)) ∨ (∃ i j, j ≤ i ∧ i < n ∧ P (A i j) ∧ (j < i ∨ k ≤ i ∨ (Chol.compute n A).2 = n))) :
    (∃ i, i < n ∧ (P (v i) ∨ ∃ j, j < i ∧ P ((Chol.compute n A).1 i j))) ∨ ∃ i, i < n ∧ k ≤ i ∧ P ((Chol.compute n A).1 i i) := by
  obtain ⟨-, hkeep⟩ := chol_keep hP hden n A h0
  rcases h with ⟨i, hi, h⟩ | ⟨i, j, hji, hi, hA, h⟩
  · exact Or.inl ⟨i, hi, Or.inl h⟩
  · by_cases e : j < i
    · exact Or.inl ⟨i, hi, Or.inr ⟨j, e, hkeep.low i j hji hi hA⟩⟩
    · have e : j = i := by omega
      subst e
      by_cases e2 : k ≤ j
      · exact Or.inr ⟨j, hi, e2, hkeep.low j j hji hi hA⟩
      · have hr : (Chol.compute n A).2 = n := by
          rcases h with h | h | h
          · omega
          · omega
          · exact h
        exact Or.inl ⟨k, hk, Or.inr ⟨j, by omega, hkeep.below k j (by omega) (by omega) hk hA⟩⟩

theorem prod_sticky (hP : Sticky P) (n : Nat) (m : Mat K) (h : ∃ i, i < n ∧ P (m i i)) : P (Chol.determinant n m) := by
  obtain ⟨i, hi, h⟩ := h
  unfold Chol.determinant
  refine forRange_sticky (fun a i => a * m i i) 1 n _ (fun a i _ _ h => hP.mul _ _ (Or.inl h)) ?_
  by_cases e : i = 0
  · exact Or.inl (e ▸ h)
  · exact Or.inr ⟨i, by omega, hi, fun a => hP.mul _ _ (Or.inr h)⟩

/-! ### gauss_jordan -/

theorem gjRow_apply (upd : K → K → K → K) (C col row : Nat) (hne : row ≠ col) (m : Mat K) (f : K) (r c : Nat) :
    forRange (col+1) C (fun c m => Mat.set m row c (upd (m row c) (m col c) f)) (Mat.set m row col 0) r c =
      if r = row then (if c = col then 0 else if col < c ∧ c < C then upd (m row c) (m col c) f else m r c) else m r c := by
  have := forRange_row (col+1) C row (fun _ g => upd (g row) (g col) f) (Mat.set m row col 0) r c
  rw [this]
  by_cases e : r = row
  · subst e
    rw [if_pos rfl]
    by_cases e2 : c = col
    · subst e2
      rw [if_neg (by omega), if_pos rfl, Mat.set_self]
    · rw [if_neg e2]
      by_cases e3 : col < c ∧ c < C
      · rw [if_pos (by omega), if_pos e3]
        beta_reduce
        rw [Mat.set_ne _ _ _ _ _ _ (by omega), Mat.set_ne _ _ _ _ _ _ (by omega)]
      · rw [if_neg (by omega), if_neg e3, Mat.set_ne _ _ _ _ _ _ (by omega)]
  · rw [if_neg (by omega), if_neg e, Mat.set_ne _ _ _ _ _ _ (by omega)]

/-- the column loop, on the matrix with its rows swapped -/
theorem gjElim_apply (upd : K → K → K → K) (R C col : Nat) (m : Mat K) (r c : Nat) :
    forN R (fun row m =>
      if row ≠ col then
        let multiple := m row col / m col col
        let m := Mat.set m row col 0
        forRange (col+1) C (fun c m => Mat.set m row c (upd (m row c) (m col c) multiple)) m
      else m) m r c =
    if r < R ∧ r ≠ col then
      (if c = col then 0 else if col < c ∧ c < C then upd (m r c) (m col c) (m r col / m col col) else m r c) else m r c := by
  refine (forN_inv (fun k (M : Mat K) => ∀ r c, M r c = if r < k ∧ r ≠ col then
      (if c = col then 0 else if col < c ∧ c < C then upd (m r c) (m col c) (m r col / m col col) else m r c) else m r c) R _ m
    (fun r c => by rw [if_neg (by omega)]) ?_) r c
  intro row M hrow hM r c
  by_cases e : row = col
  · subst e
    rw [if_neg (by simp), hM]
    by_cases e2 : r < row
    · rw [if_pos (⟨e2, by omega⟩ : r < row ∧ r ≠ row), if_pos (⟨by omega, by omega⟩ : r < row + 1 ∧ r ≠ row)]
    · rw [if_neg (fun h => e2 h.1 : ¬ (r < row ∧ r ≠ row)), if_neg (by omega : ¬ (r < row + 1 ∧ r ≠ row))]
  · rw [if_pos e]
    rw [gjRow_apply upd C col row e]
    have hcol : ∀ c, M col c = m col c := fun c => by rw [hM, if_neg (by omega)]
    have hrow : ∀ c, M row c = m row c := fun c => by rw [hM, if_neg (by omega)]
    by_cases e2 : r = row
    · subst e2
      rw [if_pos (rfl : r = r), if_pos (⟨by omega, e⟩ : r < r + 1 ∧ r ≠ col)]
      simp only [hrow, hcol]
    · rw [if_neg e2, hM]
      by_cases e3 : r < row ∧ r ≠ col
      · rw [if_pos e3, if_pos (⟨by omega, e3.2⟩ : r < row + 1 ∧ r ≠ col)]
      · rw [if_neg e3, if_neg (by omega : ¬ (r < row + 1 ∧ r ≠ col))]

/-- what is still to be used: column `q`, the columns not yet eliminated, the pivots -/
def GJBad (P : K → Prop) (R q col : Nat) (m : Mat K) : Prop :=
  (∃ r, r < R ∧ P (m r q)) ∨ (∃ r c, r < R ∧ col ≤ c ∧ c < R ∧ P (m r c)) ∨ ∃ k, k < col ∧ P (m k k)

theorem gjColumnT_bad (upd : K → K → K → K) (hupd : ∀ a x f, P a ∨ P x ∨ P f → P (upd a x f)) (hP : Sticky P) (R C q : Nat)
    (hR : R ≤ q) (hq : q < C) (col : Nat) (hcol : col < R) (m : Mat K) (h : GJBad P R q col m) :
    GJBad P R q (col+1) (gjColumnT upd R C col m) := by
  obtain ⟨hp1, hp2⟩ := pivotRow_range R col hcol m
  unfold gjColumnT
  dsimp only
  generalize pivotRow R col m = p at *
  -- the swap
  have hs : GJBad P R q col (if col ≠ p then swapRows 0 C col p m else m) := by
    by_cases e : col = p
    · rw [if_neg (by simpa using e)]; exact h
    · rw [if_pos e]
      have hsw : ∀ r c, c < C → r < R → ∃ r', r' < R ∧ swapRows 0 C col p m r' c = m r c := by
        intro r c hc hr
        by_cases e1 : r = col
        · exact ⟨p, hp2, by rw [swapRows_apply, if_pos ⟨Nat.zero_le _, hc⟩, if_pos rfl, e1]⟩
        · by_cases e2 : r = p
          · exact ⟨col, hcol, by rw [swapRows_apply, if_pos ⟨Nat.zero_le _, hc⟩, if_neg e, if_pos rfl, e2]⟩
          · exact ⟨r, hr, by rw [swapRows_apply, if_pos ⟨Nat.zero_le _, hc⟩, if_neg e2, if_neg e1]⟩
      rcases h with ⟨r, hr, h⟩ | ⟨r, c, hr, h1, h2, h⟩ | ⟨k, hk, h⟩
      · obtain ⟨r', hr', e'⟩ := hsw r q hq hr
        exact Or.inl ⟨r', hr', e' ▸ h⟩
      · obtain ⟨r', hr', e'⟩ := hsw r c (by omega) hr
        exact Or.inr (Or.inl ⟨r', c, hr', h1, h2, e' ▸ h⟩)
      · refine Or.inr (Or.inr ⟨k, hk, ?_⟩)
        rw [swapRows_apply, if_pos ⟨Nat.zero_le _, by omega⟩, if_neg (by omega), if_neg (by omega)]
        exact h
  generalize (if col ≠ p then swapRows 0 C col p m else m) = m' at hs ⊢
  clear h
  rcases hs with ⟨r, hr, h⟩ | ⟨r, c, hr, h1, h2, h⟩ | ⟨k, hk, h⟩
  · refine Or.inl ⟨r, hr, ?_⟩
    rw [gjElim_apply]
    split
    · rw [if_neg (by omega), if_pos (by omega)]; exact hupd _ _ _ (Or.inl h)
    · exact h
  · by_cases e : c = col
    · subst e
      by_cases e2 : r = c
      · subst e2
        refine Or.inr (Or.inr ⟨r, by omega, ?_⟩)
        rw [gjElim_apply, if_neg (by omega)]
        exact h
      · refine Or.inl ⟨r, hr, ?_⟩
        rw [gjElim_apply, if_pos ⟨hr, e2⟩, if_neg (by omega), if_pos (by omega)]
        exact hupd _ _ _ (Or.inr (Or.inr (hP.num _ _ h)))
    · refine Or.inr (Or.inl ⟨r, c, hr, by omega, h2, ?_⟩)
      rw [gjElim_apply]
      by_cases e5 : r < R ∧ r ≠ col
      · rw [if_pos e5, if_neg e, if_pos (by omega)]; exact hupd _ _ _ (Or.inl h)
      · rw [if_neg e5]; exact h
  · refine Or.inr (Or.inr ⟨k, by omega, ?_⟩)
    rw [gjElim_apply]
    split
    · rw [if_neg (by omega), if_neg (by omega)]; exact h
    · exact h

theorem gjFinalT_apply (R C row : Nat) (hrow : row < R) (m : Mat K) (r c : Nat) :
    gjFinalT R C row m r c = if r = row then (if c = row then 1 else if R ≤ c ∧ c < C then m r c * (1 / m row row) else m r c)
      else m r c := by
  unfold gjFinalT
  have := forRange_row R C row (fun _ g => g row * (1 / m row row)) (Mat.set m row row 1) r c
  rw [this]
  by_cases e : r = row
  · subst e
    rw [if_pos rfl]
    by_cases e2 : c = r
    · subst e2; rw [if_neg (by omega), if_pos rfl, Mat.set_self]
    · rw [if_neg e2]
      by_cases e3 : R ≤ c ∧ c < C
      · rw [if_pos ⟨rfl, e3⟩, if_pos e3]
        beta_reduce
        rw [Mat.set_ne _ _ _ _ _ _ (by omega)]
      · rw [if_neg (by omega), if_neg e3, Mat.set_ne _ _ _ _ _ _ (by omega)]
  · rw [if_neg (by omega), if_neg e, Mat.set_ne _ _ _ _ _ _ (by omega)]

theorem gaussJordanT_bad (upd : K → K → K → K) (hupd : ∀ a x f, P a ∨ P x ∨ P f → P (upd a x f)) (hP : Sticky P)
    (hden : ∀ a b, P b → P (a / b)) (R C q : Nat) (hR : R ≤ q) (hq : q < C) (m : Mat K)
    (h : (∃ r c, r < R ∧ c < R ∧ P (m r c)) ∨ ∃ r, r < R ∧ P (m r q)) :
    ∃ r, r < R ∧ P (gaussJordanT upd R C m r q) := by
  have h1 := forN_inv (fun col m => GJBad P R q col m) R (gjColumnT upd R C) m
    (by
      rcases h with ⟨r, c, hr, hc, h⟩ | h
      · exact Or.inr (Or.inl ⟨r, c, hr, Nat.zero_le _, hc, h⟩)
      · exact Or.inl h)
    (fun col m hc h => gjColumnT_bad upd hupd hP R C q hR hq col hc m h)
  unfold gaussJordanT
  generalize forN R (gjColumnT upd R C) m = M at h1
  have h2 := forN_inv (fun k (M' : Mat K) => ∀ r, r < R →
      (M' r r = if r < k then 1 else M r r) ∧ M' r q = if r < k then M r q * (1 / M r r) else M r q) R (gjFinalT R C) M
    (fun r hr => ⟨by rw [if_neg (by omega)], by rw [if_neg (by omega)]⟩)
    (by
      intro k M' hk hM r hr
      rw [gjFinalT_apply R C k hk, gjFinalT_apply R C k hk]
      by_cases e : r = k
      · subst e
        obtain ⟨e1, e2⟩ := hM r hr
        rw [if_neg (by omega)] at e1 e2
        rw [if_pos rfl, if_pos rfl, if_pos (by omega), if_pos rfl, if_neg (by omega), if_pos (by omega), if_pos (by omega), e1, e2]
        exact ⟨rfl, rfl⟩
      · obtain ⟨e1, e2⟩ := hM r hr
        rw [if_neg e, if_neg e, e1, e2]
        by_cases e3 : r < k
        · rw [if_pos e3, if_pos e3, if_pos (by omega), if_pos (by omega)]; exact ⟨rfl, rfl⟩
        · rw [if_neg e3, if_neg e3, if_neg (by omega), if_neg (by omega)]; exact ⟨rfl, rfl⟩)
  rcases h1 with ⟨r, hr, h⟩ | ⟨r, c, hr, h1, h3, h⟩ | ⟨k, hk, h⟩
  · exact ⟨r, hr, by rw [(h2 r hr).2, if_pos hr]; exact hP.mul _ _ (Or.inl h)⟩
  · omega
  · exact ⟨k, hk, by rw [(h2 k hk).2, if_pos hk]; exact hP.mul _ _ (Or.inr (hden _ _ h))⟩

/-! ### WLS -/

/-- an invalid number in what `compute()` uses: the vector and the upper triangle of the matrix -/
def WLSBad (P : K → Prop) (n : Nat) (s : WLS.St K) : Prop :=
  (∃ i, i < n ∧ P (s.v i)) ∨ ∃ i j, i ≤ j ∧ j < n ∧ P (s.C i j)

/-- an argument of the call contains an invalid number.  (`add_prior` of a matrix uses the upper triangle; the sparse calls must
address existing parameters.) -/
def OpBad (P : K → Prop) (n : Nat) : WLS.Op K → Prop
  | .clear => False
  | .prior p => 0 < n ∧ P p
  | .priorV p => ∃ i, i < n ∧ P (p i)
  | .priorM p => ∃ i j, i ≤ j ∧ j < n ∧ P (p i j)
  | .mJ m J w => 0 < n ∧ (P m ∨ P w ∨ ∃ i, i < n ∧ P (J i))
  | .mJs S m J w => 0 < n ∧ ∃ r, r < S ∧ (P (m r) ∨ P w ∨ ∃ i, i < n ∧ P (J r i))
  | .mJcov N m J W _ => 0 < n ∧ ((∃ a, a < N ∧ P (m a)) ∨ (∃ a b, a < N ∧ b < N ∧ P (W a b)) ∨ ∃ i a, i < n ∧ a < N ∧ P (J i a))
  | .mJrows N m J W _ => 0 < n ∧ ((∃ a, a < N ∧ P (m a)) ∨ (∃ a b, a < N ∧ b < N ∧ P (W a b)) ∨ ∃ i a, i < n ∧ a < N ∧ P (J a i))
  | .sparse k m J i w => 0 < k ∧ i + k ≤ n ∧ (P m ∨ P w ∨ ∃ j, j < k ∧ P (J j))
  | .sparseRows N S m J i W _ => 0 < S ∧ i + S ≤ n ∧
      ((∃ a, a < N ∧ P (m a)) ∨ (∃ a b, a < N ∧ b < N ∧ P (W a b)) ∨ ∃ j a, j < S ∧ a < N ∧ P (J a j))
  | .sparseRows2 N S1 S2 m J1 i1 J2 i2 W _ => 0 < S1 ∧ 0 < S2 ∧ i1 + S1 ≤ n ∧ i2 + S2 ≤ n ∧
      ((∃ a, a < N ∧ P (m a)) ∨ (∃ a b, a < N ∧ b < N ∧ P (W a b)) ∨ (∃ j a, j < S1 ∧ a < N ∧ P (J1 a j)) ∨
        ∃ j a, j < S2 ∧ a < N ∧ P (J2 a j))
  | .plusEq o => WLSBad P n o
  | .compute _ _ => False

/-- a sum into the matrix and the vector keeps what is there -/
theorem wlsBad_mono (n : Nat) {s t : WLS.St K} (hv : ∀ i, i < n → P (s.v i) → P (t.v i))
    (hC : ∀ i j, i ≤ j → j < n → P (s.C i j) → P (t.C i j)) (h : WLSBad P n s) : WLSBad P n t := by
  rcases h with ⟨i, hi, h⟩ | ⟨i, j, h1, h2, h⟩
  · exact Or.inl ⟨i, hi, hv i hi h⟩
  · exact Or.inr ⟨i, j, h1, h2, hC i j h1 h2 h⟩

theorem plusEqV_keep (hP : Sticky P) (k i0 : Nat) (w v : Vec K) (i : Nat) (h : P (v i)) : P (WLS.plusEqV k i0 w v i) := by
  rw [WLS.plusEqV_apply]
  split
  · exact hP.add _ _ (Or.inl h)
  · exact h

theorem plusEqV_new (hP : Sticky P) (k i0 : Nat) (w v : Vec K) (i : Nat) (hi : i < k) (h : P (w i)) :
    P (WLS.plusEqV k i0 w v (i0 + i)) := by
  rw [WLS.plusEqV_apply, if_pos (by omega), show i0 + i - i0 = i by omega]
  exact hP.add _ _ (Or.inr h)

theorem plusEqM_keep (hP : Sticky P) (R C r0 c0 : Nat) (m A : Mat K) (i j : Nat) (h : P (A i j)) :
    P (WLS.plusEqM R C r0 c0 m A i j) := by
  rw [WLS.plusEqM_apply]
  split
  · exact hP.add _ _ (Or.inl h)
  · exact h

theorem addUpper_keep (hP : Sticky P) (n k off : Nat) (m : K) (J : Vec K) (w : K) (s : WLS.St K) (h : WLSBad P n s) :
    WLSBad P n (WLS.addUpper k off m J w s) := by
  obtain ⟨e1, e2, -⟩ := WLS.addUpper_spec k off m J w s
  refine wlsBad_mono n (fun i _ h => ?_) (fun i j _ _ h => ?_) h
  · rw [e1]; split
    · exact hP.add _ _ (Or.inl h)
    · exact h
  · rw [e2]; split
    · exact hP.add _ _ (Or.inl h)
    · exact h

theorem addUpper_new (hP : Sticky P) (n k off : Nat) (hk : 0 < k) (hoff : off + k ≤ n) (m : K) (J : Vec K) (w : K) (s : WLS.St K)
    (h : P m ∨ P w ∨ ∃ j, j < k ∧ P (J j)) : WLSBad P n (WLS.addUpper k off m J w s) := by
  obtain ⟨e1, -, -⟩ := WLS.addUpper_spec k off m J w s
  have key : ∀ j, j < k → (P m ∨ P w ∨ P (J j)) → WLSBad P n (WLS.addUpper k off m J w s) := by
    intro j hj h
    refine Or.inl ⟨off + j, by omega, ?_⟩
    rw [e1, if_pos (by omega), show off + j - off = j by omega]
    exact hP.add _ _ (Or.inr (hP.mul _ _ (h.imp_right (hP.mul _ _))))
  rcases h with h | h | ⟨j, hj, h⟩
  · exact key 0 hk (Or.inl h)
  · exact key 0 hk (Or.inr (Or.inl h))
  · exact key j hj (Or.inr (Or.inr h))

theorem mulMM_sticky (hP : Sticky P) (R N C : Nat) (A B u : Mat K) (r c : Nat) (hr : r < R) (hc : c < C)
    (h : ∃ a, a < N ∧ (P (A r a) ∨ P (B a c))) : P (mulMM R N C A B u r c) := by
  unfold mulMM
  rw [evalM_apply, if_pos ⟨hr, hc⟩]
  exact dot_sticky hP N _ _ h

theorem mulMV_sticky (hP : Sticky P) (R N : Nat) (A : Mat K) (x u : Vec K) (r : Nat) (hr : r < R)
    (h : ∃ a, a < N ∧ (P (A r a) ∨ P (x a))) : P (mulMV R N A x u r) := by
  unfold mulMV
  rw [forN_vecset, if_pos hr]
  exact dot_sticky hP N _ _ h

/-- `(Jᵀ W) m`, for the `S × N` matrix `T = Jᵀ` -/
theorem weighted_sticky (hP : Sticky P) (S N : Nat) (hS : 0 < S) (T W u1 : Mat K) (m u2 : Vec K)
    (h : (∃ a, a < N ∧ P (m a)) ∨ (∃ a b, a < N ∧ b < N ∧ P (W a b)) ∨ ∃ j a, j < S ∧ a < N ∧ P (T j a)) :
    ∃ j, j < S ∧ P (mulMV S N (mulMM S N N T W u1) m u2 j) := by
  rcases h with ⟨a, ha, h⟩ | ⟨a, b, ha, hb, h⟩ | ⟨j, a, hj, ha, h⟩
  · exact ⟨0, hS, mulMV_sticky hP S N _ m u2 0 hS ⟨a, ha, Or.inr h⟩⟩
  · exact ⟨0, hS, mulMV_sticky hP S N _ m u2 0 hS ⟨b, hb, Or.inl (mulMM_sticky hP S N N T W u1 0 b hS hb ⟨a, ha, Or.inr h⟩)⟩⟩
  · exact ⟨j, hj, mulMV_sticky hP S N _ m u2 j hj ⟨a, ha, Or.inl (mulMM_sticky hP S N N T W u1 j a hj ha ⟨a, ha, Or.inl h⟩)⟩⟩

/-- a call keeps the invalid numbers that are there -/
theorem op_keep (hP : Sticky P) (n : Nat) (o : WLS.Op K) (ho : o ≠ .clear) (s : WLS.St K) (h : WLSBad P n s) :
    WLSBad P n (o.run n s) := by
  cases o with
  | clear => exact (ho rfl).elim
  | prior p =>
    refine wlsBad_mono (s := s) (t := WLS.Op.run n _ s) n (fun i _ h => h) (fun i j _ _ h => ?_) h
    show P (forN n (fun i C => Mat.set C i i (C i i + (fun _ => p) i)) s.C i j)
    rw [WLS.diag_add_apply]; split
    · exact hP.add _ _ (Or.inl h)
    · exact h
  | priorV p =>
    refine wlsBad_mono (s := s) (t := WLS.Op.run n _ s) n (fun i _ h => h) (fun i j _ _ h => ?_) h
    show P (forN n (fun i C => Mat.set C i i (C i i + p i)) s.C i j)
    rw [WLS.diag_add_apply]; split
    · exact hP.add _ _ (Or.inl h)
    · exact h
  | priorM p =>
    exact wlsBad_mono (s := s) (t := WLS.Op.run n (.priorM p) s) n (fun i _ h => h) (fun i j _ _ h => plusEqM_keep hP _ _ _ _ _ _ _ _ h) h
  | mJ m J w => exact addUpper_keep hP n n 0 m J w s h
  | mJs S m J w =>
    exact forN_inv (fun _ s => WLSBad P n s) S (fun r s => WLS.addmJ n (m r) (J r) w s) s h
      (fun r s _ h => addUpper_keep hP n n 0 (m r) (J r) w s h)
  | mJcov N m J W ju =>
    exact wlsBad_mono (s := s) (t := WLS.Op.run n (.mJcov N m J W ju) s) n (fun i _ h => plusEqV_keep hP _ _ _ _ _ h)
      (fun i j _ _ h => plusEqM_keep hP _ _ _ _ _ _ _ _ h) h
  | mJrows N m J W ju =>
    exact wlsBad_mono (s := s) (t := WLS.Op.run n (.mJrows N m J W ju) s) n (fun i _ h => plusEqV_keep hP _ _ _ _ _ h)
      (fun i j _ _ h => plusEqM_keep hP _ _ _ _ _ _ _ _ h) h
  | sparse k m J i w => exact addUpper_keep hP n k i m J w s h
  | sparseRows N S m J i W ju =>
    exact wlsBad_mono (s := s) (t := WLS.Op.run n (.sparseRows N S m J i W ju) s) n (fun i _ h => plusEqV_keep hP _ _ _ _ _ h)
      (fun i j _ _ h => plusEqM_keep hP _ _ _ _ _ _ _ _ h) h
  | sparseRows2 N S1 S2 m J1 i1 J2 i2 W ju =>
    exact wlsBad_mono (s := s) (t := WLS.Op.run n (.sparseRows2 N S1 S2 m J1 i1 J2 i2 W ju) s) n (fun i _ h => plusEqV_keep hP _ _ _ _ _ (plusEqV_keep hP _ _ _ _ _ h))
      (fun i j _ _ h => plusEqM_keep hP _ _ _ _ _ _ _ _ (plusEqM_keep hP _ _ _ _ _ _ _ _
        (plusEqM_keep hP _ _ _ _ _ _ _ _ (plusEqM_keep hP _ _ _ _ _ _ _ _ h)))) h
  | plusEq o =>
    exact wlsBad_mono (s := s) (t := WLS.Op.run n (.plusEq o) s) n (fun i _ h => plusEqV_keep hP _ _ _ _ _ h)
      (fun i j _ _ h => plusEqM_keep hP _ _ _ _ _ _ _ _ h) h
  | compute u w =>
    refine wlsBad_mono (s := s) (t := WLS.Op.run n _ s) n (fun i _ h => h) (fun i j hij _ h => ?_) h
    show P (WLS.mirror n s.C i j)
    rw [WLS.mirror_apply, if_neg (by omega)]
    exact h

/-- an invalid number in a call's arguments reaches the state -/
theorem op_new (hP : Sticky P) (n : Nat) (o : WLS.Op K) (ho : OpBad P n o) (s : WLS.St K) : WLSBad P n (o.run n s) := by
  cases o with
  | clear => exact ho.elim
  | compute u w => exact ho.elim
  | prior p =>
    refine Or.inr ⟨0, 0, le_refl _, ho.1, ?_⟩
    show P (forN n (fun i C => Mat.set C i i (C i i + (fun _ => p) i)) s.C 0 0)
    rw [WLS.diag_add_apply, if_pos ⟨rfl, ho.1⟩]
    exact hP.add _ _ (Or.inr ho.2)
  | priorV p =>
    obtain ⟨i, hi, h⟩ := ho
    refine Or.inr ⟨i, i, le_refl _, hi, ?_⟩
    show P (forN n (fun i C => Mat.set C i i (C i i + p i)) s.C i i)
    rw [WLS.diag_add_apply, if_pos ⟨rfl, hi⟩]
    exact hP.add _ _ (Or.inr h)
  | priorM p =>
    obtain ⟨i, j, h1, h2, h⟩ := ho
    refine Or.inr ⟨i, j, h1, h2, ?_⟩
    show P (WLS.plusEqM n n 0 0 p s.C i j)
    rw [WLS.plusEqM_apply, if_pos (by omega)]
    exact hP.add _ _ (Or.inr h)
  | mJ m J w => exact addUpper_new hP n n 0 ho.1 (by omega) m J w s ho.2
  | mJs S m J w =>
    obtain ⟨hn, r, hr, h⟩ := ho
    have := forN_inv (fun k s => r < k → WLSBad P n s) S (fun r s => WLS.addmJ n (m r) (J r) w s) s (by omega)
      (fun k s hk hs hr => by
        by_cases e : r = k
        · subst e; exact addUpper_new hP n n 0 hn (by omega) (m r) (J r) w s h
        · exact addUpper_keep hP n n 0 (m k) (J k) w s (hs (by omega)))
    exact this hr
  | mJcov N m J W ju =>
    obtain ⟨j, hj, h⟩ := weighted_sticky hP n N ho.1 J W (ju 0) m (ju 2 0) ho.2
    exact Or.inl ⟨0 + j, by omega, plusEqV_new hP _ _ _ _ _ hj h⟩
  | mJrows N m J W ju =>
    obtain ⟨j, hj, h⟩ := weighted_sticky hP n N ho.1 (Mat.T J) W (ju 0) m (ju 2 0) ho.2
    exact Or.inl ⟨0 + j, by omega, plusEqV_new hP _ _ _ _ _ hj h⟩
  | sparse k m J i w => exact addUpper_new hP n k i ho.1 ho.2.1 m J w s ho.2.2
  | sparseRows N S m J i W ju =>
    obtain ⟨hS, hi, h⟩ := ho
    obtain ⟨j, hj, h⟩ := weighted_sticky hP S N hS (Mat.T J) W (ju 0) m (ju 2 0) h
    exact Or.inl ⟨i + j, by omega, plusEqV_new hP _ _ _ _ _ hj h⟩
  | sparseRows2 N S1 S2 m J1 i1 J2 i2 W ju =>
    obtain ⟨h1, h2, hi1, hi2, h⟩ := ho
    have first : ((∃ a, a < N ∧ P (m a)) ∨ (∃ a b, a < N ∧ b < N ∧ P (W a b)) ∨ ∃ j a, j < S1 ∧ a < N ∧ P (J1 a j)) →
        WLSBad P n ((WLS.Op.sparseRows2 N S1 S2 m J1 i1 J2 i2 W ju).run n s) := by
      intro h
      obtain ⟨j, hj, h⟩ := weighted_sticky hP S1 N h1 (Mat.T J1) W (ju 0) m (ju 5 0) h
      exact Or.inl ⟨i1 + j, by omega, plusEqV_keep hP _ _ _ _ _ (plusEqV_new hP _ _ _ _ _ hj h)⟩
    rcases h with h | h | h | h
    · exact first (Or.inl h)
    · exact first (Or.inr (Or.inl h))
    · exact first (Or.inr (Or.inr h))
    · obtain ⟨j, hj, h⟩ := weighted_sticky hP S2 N h2 (Mat.T J2) W (ju 1) m (ju 6 0) (Or.inr (Or.inr h))
      exact Or.inl ⟨i2 + j, by omega, plusEqV_new hP _ _ _ _ _ hj h⟩
  | plusEq o =>
    rcases ho with ⟨i, hi, h⟩ | ⟨i, j, h1, h2, h⟩
    · refine Or.inl ⟨0 + i, by omega, plusEqV_new hP _ _ _ _ _ hi h⟩
    · refine Or.inr ⟨i, j, h1, h2, ?_⟩
      show P (WLS.plusEqM n n 0 0 o.C s.C i j)
      rw [WLS.plusEqM_apply, if_pos (by omega)]
      exact hP.add _ _ (Or.inr h)

theorem history_keep (hP : Sticky P) (n : Nat) (ops : List (WLS.Op K)) (ho : ∀ o ∈ ops, o ≠ .clear) (s : WLS.St K)
    (h : WLSBad P n s) : WLSBad P n (WLS.history n ops s) := by
  induction ops generalizing s with
  | nil => exact h
  | cons o ops ih =>
    exact ih (fun o h => ho o (List.mem_cons_of_mem _ h)) _ (op_keep hP n o (ho o List.mem_cons_self) s h)

end TooN.Special
