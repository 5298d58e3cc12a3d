import Verif.Model.Special
import Verif.Proof.GaussElim
import Verif.Proof.Elim
import Verif.Proof.Ops
/-!
# Values that no operation gets rid of

`P` holds of the result of an operation as soon as it holds of an operand: NaN is the example.
-/
set_option linter.unusedSectionVars false
namespace TooN.Special
open TooN.Ops TooN.Elim

variable {K : Type _} [Zero K] [One K] [Add K] [Sub K] [Mul K] [Div K] [Neg K] [LT K] [DecidableLT K] [DecidableEq K]

/-- `P` is inherited by sums, differences, products, negations and numerators -/
structure Sticky (P : K → Prop) : Prop where
  add : ∀ a b, P a ∨ P b → P (a + b)
  sub : ∀ a b, P a ∨ P b → P (a - b)
  mul : ∀ a b, P a ∨ P b → P (a * b)
  num : ∀ a b, P a → P (a / b)
  neg : ∀ a, P a → P (-a)

/-- a loop that combines the accumulator with one term after the other -/
theorem forN_sticky {P : K → Prop} (op : K → Nat → K) (n : Nat) (s : K) (h1 : ∀ a i, i < n → P a → P (op a i))
    (h : P s ∨ ∃ i, i < n ∧ ∀ a, P (op a i)) : P (forN n (fun i a => op a i) s) := by
  induction n with
  | zero =>
    rcases h with h | ⟨i, h, -⟩
    · exact h
    · omega
  | succ n ih =>
    rw [forN_succ]
    rcases h with h | ⟨i, hi, h⟩
    · exact h1 _ n (by omega) (ih (fun a i hi => h1 a i (by omega)) (Or.inl h))
    · by_cases e : i = n
      · subst e; exact h _
      · exact h1 _ n (by omega) (ih (fun a i hi => h1 a i (by omega)) (Or.inr ⟨i, by omega, h⟩))

theorem forRange_sticky {P : K → Prop} (op : K → Nat → K) (lo hi : Nat) (s : K) (h1 : ∀ a i, lo ≤ i → i < hi → P a → P (op a i))
    (h : P s ∨ ∃ i, lo ≤ i ∧ i < hi ∧ ∀ a, P (op a i)) : P (forRange lo hi (fun i a => op a i) s) := by
  unfold forRange
  refine forN_sticky (fun a k => op a (lo + k)) (hi - lo) s (fun a i h => h1 a _ (by omega) (by omega)) ?_
  rcases h with h | ⟨i, h2, h3, h4⟩
  · exact Or.inl h
  · refine Or.inr ⟨i - lo, by omega, ?_⟩
    rw [show lo + (i - lo) = i by omega]
    exact h4

variable {P : K → Prop}

theorem sum_sticky (hP : Sticky P) (n : Nat) (t : Nat → K) (s : K) (h : P s ∨ ∃ i, i < n ∧ P (t i)) :
    P (forN n (fun i a => a + t i) s) := by
  refine forN_sticky (fun a i => a + t i) n s (fun a i _ h => hP.add _ _ (Or.inl h)) ?_
  rcases h with h | ⟨i, hi, h⟩
  · exact Or.inl h
  · exact Or.inr ⟨i, hi, fun a => hP.add _ _ (Or.inr h)⟩

theorem dot_sticky (hP : Sticky P) (n : Nat) (a b : Vec K) (h : ∃ i, i < n ∧ (P (a i) ∨ P (b i))) : P (dot n a b) := by
  obtain ⟨i, hi, h⟩ := h
  exact sum_sticky hP n (fun i => a i * b i) 0 (Or.inr ⟨i, hi, hP.mul _ _ h⟩)

/-! ### Gaussian elimination -/

/-- `P` holds somewhere in the data that is still to be used: column `q` of `b`, the part of `A` not yet eliminated, and the part
above the diagonal -/
def Bad (P : K → Prop) (n q i : Nat) (A b : Mat K) : Prop :=
  (∃ r, r < n ∧ P (b r q)) ∨ ∃ r c, r < n ∧ c < n ∧ ((i ≤ r ∧ i ≤ c) ∨ (r < i ∧ r < c)) ∧ P (A r c)

theorem pivotRow_range (n i : Nat) (hi : i < n) (A : Mat K) : i ≤ pivotRow n i A ∧ pivotRow n i A < n := by
  have := forRange_inv (fun ii (st : Nat × K) => i ≤ st.1 ∧ st.1 < ii) (i+1) n (by omega)
    (fun ii (st : Nat × K) => if fabs (A ii i) > st.2 then (ii, fabs (A ii i)) else st) (i, fabs (A i i))
    ⟨le_refl _, Nat.lt_succ_self _⟩
    (by
      intro ii st h1 h2 ⟨h3, h4⟩
      split
      · exact ⟨by omega, by omega⟩
      · exact ⟨h3, by omega⟩)
  exact this

theorem sw_sw (i p r : Nat) : sw i p (sw i p r) = r := by unfold sw; split_ifs <;> omega

theorem sw_lt {n i p : Nat} (hi : i < n) (hp : p < n) (r : Nat) (hr : r < n) : sw i p r < n := by unfold sw; split_ifs <;> omega

theorem geStepT_bad (hP : Sticky P) (hden : ∀ a, P a → P (1 / a)) (upd : K → K → K → K)
    (hupd : ∀ a f x, P a ∨ P f ∨ P x → P (upd a f x)) (n nc q i : Nat) (hq : q < nc) (hi : i < n) (st : Mat K × Mat K)
    (h : Bad P n q i st.1 st.2) : Bad P n q (i+1) (geStepT upd n nc i st).1 (geStepT upd n nc i st).2 := by
  obtain ⟨A, b⟩ := st
  obtain ⟨hp1, hp2⟩ := pivotRow_range n i hi A
  obtain ⟨A', b', e, hA, hb, hA2⟩ := geStepT_gen upd n nc i hi A b _ rfl
  rw [e]
  dsimp only at h ⊢
  generalize pivotRow n i A = p at *
  have swlow : ∀ r, r < i → sw i p r = r := by intro r hr; unfold sw; split_ifs <;> omega
  have swp : sw i p p = i := by unfold sw; rw [if_pos rfl]
  have swge : ∀ r, i ≤ r → i ≤ sw i p r := by intro r hr; unfold sw; split_ifs <;> omega
  have swne : ∀ r, r ≠ p → sw i p r ≠ i := by intro r hr; unfold sw; split_ifs <;> omega
  rcases h with ⟨r, hr, h⟩ | ⟨r, c, hr, hc, (⟨h1, h2⟩ | ⟨h1, h2⟩), h⟩
  · -- an element of the right-hand side
    refine Or.inl ⟨sw i p r, sw_lt hi hp2 r hr, ?_⟩
    rw [hb _ _ hq]
    by_cases e1 : sw i p r = i
    · have : r = p := by by_contra hne; exact swne r hne e1
      rw [if_pos e1]
      exact hP.mul _ _ (Or.inl (this ▸ h))
    · rw [if_neg e1]
      split
      · exact hupd _ _ _ (Or.inl (by rw [sw_sw]; exact h))
      · rw [sw_sw]; exact h
  · by_cases hci : c = i
    · subst hci
      by_cases hrp : r = p
      · -- the pivot
        subst hrp
        refine Or.inl ⟨c, hi, ?_⟩
        rw [hb _ _ hq, if_pos rfl]
        exact hP.mul _ _ (Or.inr (hden _ h))
      · -- a multiplier
        refine Or.inl ⟨sw c p r, sw_lt hi hp2 r hr, ?_⟩
        rw [hb _ _ hq, if_neg (swne r hrp), if_pos ⟨by have := swge r h1; have := swne r hrp; omega, sw_lt hi hp2 r hr⟩]
        exact hupd _ _ _ (Or.inr (Or.inl (by rw [sw_sw]; exact h)))
    · -- the part still to be eliminated
      refine Or.inr ⟨sw i p r, c, sw_lt hi hp2 r hr, hc, ?_, ?_⟩
      · by_cases e1 : sw i p r = i
        · exact Or.inr ⟨by omega, by omega⟩
        · exact Or.inl ⟨by have := swge r h1; omega, by omega⟩
      · rw [hA _ _ (by omega) hc]
        by_cases e1 : sw i p r = i
        · have : r = p := by by_contra hne; exact swne r hne e1
          rw [if_pos e1]
          exact hP.mul _ _ (Or.inl (this ▸ h))
        · rw [if_neg e1]
          split
          · exact hupd _ _ _ (Or.inl (by rw [sw_sw]; exact h))
          · rw [sw_sw]; exact h
  · -- above the diagonal
    refine Or.inr ⟨r, c, hr, hc, Or.inr ⟨by omega, h2⟩, ?_⟩
    by_cases hci : i < c
    · rw [hA _ _ hci hc, if_neg (by omega), if_neg (by omega), swlow r h1]
      exact h
    · rw [hA2 r c h1 (by omega)]
      exact h

theorem geBack_bad (hP : Sticky P) (n nc q : Nat) (hq : q < nc) (A b x : Mat K) (h : Bad P n q n A b) :
    ∃ r, r < n ∧ P (geBack n nc A b x r q) := by
  rcases h with ⟨r, hr, h⟩ | ⟨r, c, hr, hc, (⟨h1, h2⟩ | ⟨h1, h2⟩), h⟩
  · refine ⟨r, hr, ?_⟩
    rw [geBack_gen n nc A b x r q hr hq]
    exact forRange_sticky (fun v j => v - A r j * geBack n nc A b x j q) (r+1) n (b r q)
      (fun a i _ _ h => hP.sub _ _ (Or.inl h)) (Or.inl h)
  · omega
  · refine ⟨r, hr, ?_⟩
    rw [geBack_gen n nc A b x r q hr hq]
    exact forRange_sticky (fun v j => v - A r j * geBack n nc A b x j q) (r+1) n (b r q)
      (fun a i _ _ h => hP.sub _ _ (Or.inl h)) (Or.inr ⟨c, h2, hc, fun a => hP.sub _ _ (Or.inr (hP.mul _ _ (Or.inl h)))⟩)

/-- an invalid element of `A`, or of column `q` of `b`, makes column `q` of the solution invalid -/
theorem gaussElimT_bad (hP : Sticky P) (hden : ∀ a, P a → P (1 / a)) (upd : K → K → K → K)
    (hupd : ∀ a f x, P a ∨ P f ∨ P x → P (upd a f x)) (n nc q : Nat) (hq : q < nc) (A b x : Mat K)
    (h : (∃ r c, r < n ∧ c < n ∧ P (A r c)) ∨ ∃ r, r < n ∧ P (b r q)) :
    ∃ r, r < n ∧ P (gaussElimT upd n nc A b x r q) := by
  unfold gaussElimT
  have := forN_inv (fun i (st : Mat K × Mat K) => Bad P n q i st.1 st.2) n (geStepT upd n nc) (A, b)
    (by
      rcases h with ⟨r, c, hr, hc, h⟩ | h
      · exact Or.inr ⟨r, c, hr, hc, Or.inl ⟨Nat.zero_le _, Nat.zero_le _⟩, h⟩
      · exact Or.inl h)
    (fun i st hi h => geStepT_bad hP hden upd hupd n nc q i hq hi st h)
  exact geBack_bad hP n nc q hq _ _ x this

/-- where no pivot vanishes, the total and the partial model agree -/
theorem gaussElimT_eq (upd : K → K → K → K) (n nc : Nat) (A b x X : Mat K) (h : gaussElimU upd n nc A b x = some X) :
    gaussElimT upd n nc A b x = X := by
  have key : ∀ k st, forNM k (geStepU upd n nc) (A, b) = some st → forN k (geStepT upd n nc) (A, b) = st := by
    intro k
    induction k with
    | zero => intro st h; exact Option.some.inj h
    | succ k ih =>
      intro st h
      rw [forNM_succ] at h
      obtain ⟨s1, h1, h2⟩ := Option.bind_eq_some_iff.1 h
      rw [forN_succ, ih s1 h1]
      obtain ⟨A1, b1⟩ := s1
      by_cases hz : A1 (pivotRow n k A1) k = 0
      · rw [geStepU_none _ _ _ _ _ _ hz] at h2; cases h2
      · rw [geStepU_eq _ _ _ _ _ _ hz] at h2
        exact Option.some.inj h2
  unfold gaussElimU at h
  obtain ⟨st, h1, h2⟩ := Option.bind_eq_some_iff.1 h
  unfold gaussElimT
  rw [key n st h1]
  exact Option.some.inj h2

/-! ### Determinant -/

/-- the effect of the elimination loop of the determinant -/
theorem detInner (n i : Nat) (A : Mat K) (pivot : K) :
    ∀ r c, forRange (i+1) n (fun u A =>
      let factor := A u i / pivot
      forRange (i+1) n (fun j A => Mat.set A u j (A u j - factor * A i j)) A) A r c =
      if i < r ∧ r < n ∧ i < c ∧ c < n then A r c - A r i / pivot * A i c else A r c := by
  by_cases hle : i + 1 ≤ n
  · have := forRange_inv (fun u (st : Mat K) =>
      ∀ r c, st r c = if i < r ∧ r < u ∧ i < c ∧ c < n then A r c - A r i / pivot * A i c else A r c)
      (i+1) n hle (fun u A =>
      let factor := A u i / pivot
      forRange (i+1) n (fun j A => Mat.set A u j (A u j - factor * A i j)) A) A
      (fun r c => by rw [if_neg (by omega)])
      (by
        intro u st hu hun h1 r c
        have hf : st u i = A u i := by rw [h1, if_neg (by omega)]
        dsimp only
        have := subRow_apply (i+1) n u i (by omega) (st u i / pivot) st r c
        unfold subRow at this
        rw [this, hf]
        by_cases e : r = u ∧ i + 1 ≤ c ∧ c < n
        · obtain ⟨rfl, e2, e3⟩ := e
          rw [if_pos ⟨rfl, e2, e3⟩, if_pos (by omega), h1, if_neg (by omega), h1, if_neg (by omega)]
        · rw [if_neg e, h1]
          by_cases e2 : i < r ∧ r < u ∧ i < c ∧ c < n
          · rw [if_pos e2, if_pos (by omega)]
          · rw [if_neg e2, if_neg (by omega)])
    exact this
  · intro r c
    rw [forRange_empty _ _ (by omega), if_neg (by omega)]

/-- the state of the determinant's loop still carries the invalid element, or the function has returned 0 -/
def DBad (P : K → Prop) (n i : Nat) : DetState K → Prop
  | .run A det => P det ∨ ∃ r c, i ≤ r ∧ r < n ∧ i ≤ c ∧ c < n ∧ P (A r c)
  | .ret d => d = 0
  | .divZero => False

theorem detStepT_bad (hP : Sticky P) (n i : Nat) (hi : i < n) (s : DetState K) (h : DBad P n i s) :
    DBad P n (i+1) (detStepT n i s) := by
  cases s with
  | ret d => exact h
  | divZero => exact h
  | run A det =>
    obtain ⟨hp1, hp2⟩ := pivotRow_range n i hi A
    unfold detStepT
    dsimp only
    generalize pivotRow n i A = p at *
    have hA1 : ∀ r c, i ≤ c → c < n → (if p ≠ i then swapRows i n i p A else A) r c = A (sw i p r) c := by
      intro r c h1 h2
      by_cases h : p ≠ i
      · rw [if_pos h, swapRows_apply, if_pos ⟨h1, h2⟩]
        unfold sw
        split_ifs <;> rfl
      · rw [if_neg h]
        have h : p = i := not_not.1 h
        unfold sw
        rw [h]
        split_ifs with h1 <;> first | rfl | rw [h1]
    generalize (if p ≠ i then swapRows i n i p A else A) = A1 at *
    have hd1 : P det → P (if p ≠ i then det * (-1) else det) := by
      intro h
      split
      · exact hP.mul _ _ (Or.inl h)
      · exact h
    generalize (if p ≠ i then det * (-1) else det) = det1 at *
    split
    · exact rfl
    · have swge : ∀ r, i ≤ r → i ≤ sw i p r := by intro r hr; unfold sw; split_ifs <;> omega
      have swn := sw_lt (n := n) hi hp2
      rcases h with h | ⟨r, c, h1, h2, h3, h4, h⟩
      · exact Or.inl (hP.mul _ _ (Or.inl (hd1 h)))
      · have h' : P (A1 (sw i p r) c) := by rw [hA1 _ _ h3 h4, sw_sw]; exact h
        have g1 := swge r h1
        have g2 := swn r h2
        generalize sw i p r = r' at *
        by_cases e1 : r' = i
        · subst e1
          by_cases e2 : c = r'
          · subst e2
            exact Or.inl (hP.mul _ _ (Or.inr h'))
          · refine Or.inr ⟨r'+1, c, le_refl _, by omega, by omega, h4, ?_⟩
            rw [detInner, if_pos (by omega)]
            exact hP.sub _ _ (Or.inr (hP.mul _ _ (Or.inr h')))
        · by_cases e2 : c = i
          · subst e2
            refine Or.inr ⟨r', c+1, by omega, g2, le_refl _, by omega, ?_⟩
            rw [detInner, if_pos (by omega)]
            exact hP.sub _ _ (Or.inr (hP.mul _ _ (Or.inl (hP.num _ _ h'))))
          · refine Or.inr ⟨r', c, by omega, g2, by omega, h4, ?_⟩
            rw [detInner, if_pos (by omega)]
            exact hP.sub _ _ (Or.inl h')

/-- an invalid element makes the determinant invalid, unless the function returns 0 early -/
theorem determinantT_bad (hP : Sticky P) (n : Nat) (A : Mat K) (h : ∃ r c, r < n ∧ c < n ∧ P (A r c)) :
    P (determinantT n A) ∨ (n ≠ 2 ∧ determinantT n A = 0) := by
  obtain ⟨r, c, hr, hc, h⟩ := h
  unfold determinantT
  split
  · rename_i hn
    subst hn
    left
    interval_cases r <;> interval_cases c
    · exact hP.sub _ _ (Or.inl (hP.mul _ _ (Or.inl h)))
    · exact hP.sub _ _ (Or.inr (hP.mul _ _ (Or.inr h)))
    · exact hP.sub _ _ (Or.inr (hP.mul _ _ (Or.inl h)))
    · exact hP.sub _ _ (Or.inl (hP.mul _ _ (Or.inr h)))
  · rename_i hn
    have := forN_inv (fun i s => DBad P n i s) n (detStepT n) (.run A 1)
      (Or.inr ⟨r, c, Nat.zero_le _, hr, Nat.zero_le _, hc, h⟩) (fun i s hi h => detStepT_bad hP n i hi s h)
    unfold detGaussT
    revert this
    generalize forN n (detStepT n) (.run A 1) = s
    intro this
    cases s with
    | run A d =>
      rcases this with h | ⟨r, c, h1, h2, -⟩
      · exact Or.inl h
      · omega
    | ret d => exact Or.inr ⟨hn, this⟩
    | divZero => exact this.elim

end TooN.Special
